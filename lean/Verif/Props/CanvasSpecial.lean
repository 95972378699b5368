import Verif.Model.CanvasSpecial
import Verif.Props.WarpSpecial
import Verif.Props.StitchSpecial
import Verif.Props.Rounded
import Mathlib.Order.Bounds.Basic

/-!
# Property C225: stitching with infinities and NaN

Full statement of C225: `create_stitched_image` with an execution policy returns a canvas that holds the first picture
and the projected corners of the second, or the empty picture when the homography has no inverse.

What is missing: corners at infinity make the call undefined, corners that are NaN are ignored, and with a NaN in the
homography the result is the first picture alone.
-/

namespace TinyDIP.Props

open TinyDIP Rnd Sp Dbl Stitch

open scoped Classical

/-! ## C225 -/

/-- The image of a point, computed with rounding. -/
noncomputable def imageX (k : Sp.Hom) (p : Nat × Nat) : Dbl := (rowD k.h11 k.h12 k.h13 p).div (rowD k.h31 k.h32 k.h33 p)
noncomputable def imageY (k : Sp.Hom) (p : Nat × Nat) : Dbl := (rowD k.h21 k.h22 k.h23 p).div (rowD k.h31 k.h32 k.h33 p)

noncomputable def lowest (a : Dbl) (l : List Dbl) : Dbl := l.foldl (fun s x => if x.lt s then x else s) a
noncomputable def highest (a : Dbl) (l : List Dbl) : Dbl := l.foldl (fun s x => if s.lt x then x else s) a

theorem cornerD_fold (k : Sp.Hom) : ∀ (l : List Pt) (a b c d : Dbl), l.foldl (cornerD k) (a, b, c, d) =
    (lowest a (l.map (imageX k)), highest b (l.map (imageX k)), lowest c (l.map (imageY k)),
      highest d (l.map (imageY k))) := by
  intro l
  induction l with
  | nil => intros; rfl
  | cons p l ih => intro a b c d; exact ih _ _ _ _

theorem size_pred {n : Nat} (h0 : 0 < n) (h : n ≤ 2 ^ 53) : ((Dbl.ofNat n).sub (.num 1)).toIndex = .ok (n - 1) := by
  rw [ofNat_eq h]
  have e : (n : ℝ) + -1 = ((n - 1 : Nat) : ℝ) := by rw [Nat.cast_sub h0]; push_cast; ring
  have : Dbl.sub (.num n) (.num 1) = Dbl.ofNat (n - 1) := by
    show Dbl.rnd ((n : ℝ) + -1) = Dbl.rnd _
    rw [e]
  rw [this, ofNat_eq (by omega)]
  exact toSize_nat (lt_of_le_of_lt (show n - 1 ≤ 2 ^ 53 by omega) (by norm_num))

theorem boundsD_eq (k : Sp.Hom) (w1 h1 : Nat) {w2 h2 : Nat} (hw : 0 < w2) (hh : 0 < h2) (hw' : w2 ≤ 2 ^ 53)
    (hh' : h2 ≤ 2 ^ 53) : boundsD k w1 h1 w2 h2 =
    .ok (lowest (.num 0) ((corners w2 h2).map (imageX k)), highest (.ofNat w1) ((corners w2 h2).map (imageX k)),
      lowest (.num 0) ((corners w2 h2).map (imageY k)), highest (.ofNat h1) ((corners w2 h2).map (imageY k))) := by
  unfold boundsD
  rw [size_pred hw hw', Res.ok_bind, size_pred hh hh', Res.ok_bind, cornerD_fold]
  rfl

theorem lowest_least : ∀ (l : List Dbl) (a : ℝ), (∀ v ∈ l, v ≠ .pinf ∧ v ≠ .ninf) →
    ∃ m, lowest (.num a) l = .num m ∧ IsLeast ({a} ∪ {x | .num x ∈ l}) m := by
  intro l
  induction l with
  | nil => intro a _; exact ⟨a, rfl, by simp [IsLeast, lowerBounds]⟩
  | cons v l ih =>
    intro a h
    have h' : ∀ v ∈ l, v ≠ .pinf ∧ v ≠ .ninf := fun v hv => h v (by simp [hv])
    cases v with
    | pinf => exact absurd rfl (h _ (by simp)).1
    | ninf => exact absurd rfl (h _ (by simp)).2
    | nan =>
      obtain ⟨m, e, hm⟩ := ih a h'
      refine ⟨m, ?_, ?_⟩
      · rw [← e]
        show lowest (if Dbl.nan.lt (.num a) then _ else _) l = _
        rw [if_neg (show ¬ Dbl.nan.lt (.num a) from fun h => h)]
      · simpa using hm
    | num x =>
      by_cases hx : x < a
      · obtain ⟨m, e, hm⟩ := ih x h'
        refine ⟨m, ?_, ?_⟩
        · rw [← e]
          show lowest (if (Dbl.num x).lt (.num a) then _ else _) l = _
          rw [if_pos (show (Dbl.num x).lt (.num a) from hx)]
        · obtain ⟨h1, h2⟩ := hm
          constructor
          · rcases h1 with h1 | h1
            · right; exact List.mem_cons.2 (.inl (congrArg Dbl.num h1))
            · right; exact List.mem_cons.2 (.inr h1)
          · rintro y (rfl | hy)
            · exact (h2 (.inl rfl)).trans hx.le
            · rcases List.mem_cons.1 hy with hy | hy
              · cases hy; exact h2 (.inl rfl)
              · exact h2 (.inr hy)
      · obtain ⟨m, e, hm⟩ := ih a h'
        refine ⟨m, ?_, ?_⟩
        · rw [← e]
          show lowest (if (Dbl.num x).lt (.num a) then _ else _) l = _
          rw [if_neg (show ¬ (Dbl.num x).lt (.num a) from hx)]
        · obtain ⟨h1, h2⟩ := hm
          constructor
          · rcases h1 with h1 | h1
            · left; exact h1
            · right; exact List.mem_cons.2 (.inr h1)
          · rintro y (rfl | hy)
            · exact h2 (.inl rfl)
            · rcases List.mem_cons.1 hy with hy | hy
              · cases hy; exact (h2 (.inl rfl)).trans (not_lt.1 hx)
              · exact h2 (.inr hy)

theorem highest_greatest : ∀ (l : List Dbl) (a : ℝ), (∀ v ∈ l, v ≠ .pinf ∧ v ≠ .ninf) →
    ∃ m, highest (.num a) l = .num m ∧ IsGreatest ({a} ∪ {x | .num x ∈ l}) m := by
  intro l
  induction l with
  | nil => intro a _; exact ⟨a, rfl, by simp [IsGreatest, upperBounds]⟩
  | cons v l ih =>
    intro a h
    have h' : ∀ v ∈ l, v ≠ .pinf ∧ v ≠ .ninf := fun v hv => h v (by simp [hv])
    cases v with
    | pinf => exact absurd rfl (h _ (by simp)).1
    | ninf => exact absurd rfl (h _ (by simp)).2
    | nan =>
      obtain ⟨m, e, hm⟩ := ih a h'
      refine ⟨m, ?_, ?_⟩
      · rw [← e]
        show highest (if (Dbl.num a).lt .nan then _ else _) l = _
        rw [if_neg (show ¬ (Dbl.num a).lt .nan from fun h => h)]
      · simpa using hm
    | num x =>
      by_cases hx : a < x
      · obtain ⟨m, e, hm⟩ := ih x h'
        refine ⟨m, ?_, ?_⟩
        · rw [← e]
          show highest (if (Dbl.num a).lt (.num x) then _ else _) l = _
          rw [if_pos (show (Dbl.num a).lt (.num x) from hx)]
        · obtain ⟨h1, h2⟩ := hm
          constructor
          · rcases h1 with h1 | h1
            · right; exact List.mem_cons.2 (.inl (congrArg Dbl.num h1))
            · right; exact List.mem_cons.2 (.inr h1)
          · rintro y (rfl | hy)
            · exact hx.le.trans (h2 (.inl rfl))
            · rcases List.mem_cons.1 hy with hy | hy
              · cases hy; exact h2 (.inl rfl)
              · exact h2 (.inr hy)
      · obtain ⟨m, e, hm⟩ := ih a h'
        refine ⟨m, ?_, ?_⟩
        · rw [← e]
          show highest (if (Dbl.num a).lt (.num x) then _ else _) l = _
          rw [if_neg (show ¬ (Dbl.num a).lt (.num x) from hx)]
        · obtain ⟨h1, h2⟩ := hm
          constructor
          · rcases h1 with h1 | h1
            · left; exact h1
            · right; exact List.mem_cons.2 (.inr h1)
          · rintro y (rfl | hy)
            · exact h2 (.inl rfl)
            · rcases List.mem_cons.1 hy with hy | hy
              · cases hy; exact (not_lt.1 hx).trans (h2 (.inl rfl))
              · exact h2 (.inr hy)

/-- No corner at infinity: the bounds of the canvas are the least and the greatest of the coordinates of the first
picture and of the projected corners that are numbers. Corners that are NaN are ignored. -/
theorem C225_bounds_partial (k : Sp.Hom) {w1 h1 w2 h2 : Nat} (hw1 : w1 ≤ 2 ^ 53) (hh1 : h1 ≤ 2 ^ 53) (hw : 0 < w2)
    (hh : 0 < h2) (hw' : w2 ≤ 2 ^ 53) (hh' : h2 ≤ 2 ^ 53)
    (hx : ∀ p ∈ corners w2 h2, imageX k p ≠ .pinf ∧ imageX k p ≠ .ninf)
    (hy : ∀ p ∈ corners w2 h2, imageY k p ≠ .pinf ∧ imageY k p ≠ .ninf) :
    ∃ left right top bottom : ℝ, boundsD k w1 h1 w2 h2 = .ok (.num left, .num right, .num top, .num bottom) ∧
      IsLeast ({0} ∪ {x | ∃ p ∈ corners w2 h2, imageX k p = .num x}) left ∧
      IsGreatest ({(w1 : ℝ)} ∪ {x | ∃ p ∈ corners w2 h2, imageX k p = .num x}) right ∧
      IsLeast ({0} ∪ {y | ∃ p ∈ corners w2 h2, imageY k p = .num y}) top ∧
      IsGreatest ({(h1 : ℝ)} ∪ {y | ∃ p ∈ corners w2 h2, imageY k p = .num y}) bottom := by
  have gx : ∀ v ∈ (corners w2 h2).map (imageX k), v ≠ .pinf ∧ v ≠ .ninf := by
    intro v hv
    obtain ⟨p, hp, rfl⟩ := List.mem_map.1 hv
    exact hx p hp
  have gy : ∀ v ∈ (corners w2 h2).map (imageY k), v ≠ .pinf ∧ v ≠ .ninf := by
    intro v hv
    obtain ⟨p, hp, rfl⟩ := List.mem_map.1 hv
    exact hy p hp
  obtain ⟨l, el, pl⟩ := lowest_least _ 0 gx
  obtain ⟨r, er, pr⟩ := highest_greatest _ w1 gx
  obtain ⟨t, et, pt⟩ := lowest_least _ 0 gy
  obtain ⟨b, eb, pb⟩ := highest_greatest _ h1 gy
  simp only [List.mem_map] at pl pr pt pb
  refine ⟨l, r, t, b, ?_, pl, pr, pt, pb⟩
  rw [boundsD_eq k w1 h1 hw hh hw' hh', el, et, ofNat_eq hw1, ofNat_eq hh1, er, eb]

/-! ### Corners at infinity -/

theorem lowest_cases (l : List Dbl) : ∀ a, (a = .ninf ∨ ∃ x, a = .num x) →
    (lowest a l = .ninf ∨ ∃ x, lowest a l = .num x) ∧ (a = .ninf ∨ .ninf ∈ l → lowest a l = .ninf) := by
  induction l with
  | nil => intro a h; exact ⟨h, fun h => by simpa [lowest] using h⟩
  | cons v l ih =>
    intro a h
    have e : lowest a (v :: l) = lowest (if v.lt a then v else a) l := rfl
    rw [e]
    have hs : (if v.lt a then v else a) = .ninf ∨ ∃ x, (if v.lt a then v else a) = .num x := by
      split
      · rename_i hv
        cases v with
        | num x => exact .inr ⟨x, rfl⟩
        | ninf => exact .inl rfl
        | pinf => rcases h with rfl | ⟨x, rfl⟩ <;> exact hv.elim
        | nan => rcases h with rfl | ⟨x, rfl⟩ <;> exact hv.elim
      · exact h
    refine ⟨(ih _ hs).1, fun hn => (ih _ hs).2 ?_⟩
    rcases hn with rfl | hn
    · left
      rw [if_neg]
      cases v <;> exact fun h => h
    · rcases List.mem_cons.1 hn with rfl | hn
      · left
        rcases h with rfl | ⟨x, rfl⟩
        · split <;> rfl
        · rw [if_pos (show Dbl.ninf.lt (.num x) from trivial)]
      · exact .inr hn

theorem highest_cases (l : List Dbl) : ∀ a, (a = .pinf ∨ ∃ x, a = .num x) →
    (highest a l = .pinf ∨ ∃ x, highest a l = .num x) ∧ (a = .pinf ∨ .pinf ∈ l → highest a l = .pinf) := by
  induction l with
  | nil => intro a h; exact ⟨h, fun h => by simpa [highest] using h⟩
  | cons v l ih =>
    intro a h
    have e : highest a (v :: l) = highest (if a.lt v then v else a) l := rfl
    rw [e]
    have hs : (if a.lt v then v else a) = .pinf ∨ ∃ x, (if a.lt v then v else a) = .num x := by
      split
      · rename_i hv
        cases v with
        | num x => exact .inr ⟨x, rfl⟩
        | pinf => exact .inl rfl
        | ninf => rcases h with rfl | ⟨x, rfl⟩ <;> exact hv.elim
        | nan => rcases h with rfl | ⟨x, rfl⟩ <;> exact hv.elim
      · exact h
    refine ⟨(ih _ hs).1, fun hn => (ih _ hs).2 ?_⟩
    rcases hn with rfl | hn
    · left
      rw [if_neg]
      cases v <;> exact fun h => h
    · rcases List.mem_cons.1 hn with rfl | hn
      · left
        rcases h with rfl | ⟨x, rfl⟩
        · split <;> rfl
        · rw [if_pos (show (Dbl.num x).lt .pinf from trivial)]
      · exact .inr hn

theorem span_infinite {l : List Dbl} {a b : Dbl} (ha : ∃ x, a = .num x) (hb : ∃ x, b = .num x)
    (h : .pinf ∈ l ∨ .ninf ∈ l) : ((highest b l).sub (lowest a l)).ceil.toIndex = .ub := by
  have c1 := lowest_cases l a (.inr ha)
  have c2 := highest_cases l b (.inr hb)
  have : (highest b l).sub (lowest a l) = .pinf := by
    rcases h with h | h
    · rw [c2.2 (.inr h)]
      rcases c1.1 with e | ⟨x, e⟩ <;> rw [e] <;> rfl
    · rw [c1.2 (.inr h)]
      rcases c2.1 with e | ⟨x, e⟩ <;> rw [e] <;> rfl
  rw [this]
  rfl

theorem toIndex_cases (a : Dbl) : a.toIndex = .ub ∨ ∃ n, a.toIndex = .ok n := by
  cases a with
  | num x =>
    by_cases h : -1 < x ∧ x < 2 ^ 64
    · exact .inr ⟨_, if_pos h⟩
    · exact .inl (if_neg h)
  | _ => exact .inl rfl

theorem infinite_ub (interp : Image Rgb → Dbl → Dbl → Res Rgb) (orderW orderB : Nat → Nat → List Nat)
    {img1 img2 : Image Rgb} {w1 h1 w2 h2 : Nat} {f1 f2 : Nat → Nat → Rgb} (s1 : img1.Shows w1 h1 f1)
    (s2 : img2.Shows w2 h2 f2) (hw1 : w1 ≤ 2 ^ 53) (hh1 : h1 ≤ 2 ^ 53) (hw : 0 < w2) (hh : 0 < h2) (hw' : w2 ≤ 2 ^ 53)
    (hh' : h2 ≤ 2 ^ 53) (H k : Sp.Hom) (hk : invertD H = some k)
    (hc : ∃ p ∈ corners w2 h2, imageX k p = .pinf ∨ imageX k p = .ninf ∨ imageY k p = .pinf ∨ imageY k p = .ninf) :
    stitchD interp orderW orderB img1 img2 H = .ub := by
  unfold stitchD
  rw [hk]
  simp only [s1.width, s1.height, s2.width, s2.height, boundsD_eq k w1 h1 hw hh hw' hh', Res.ok_bind]
  obtain ⟨p, hp, h⟩ := hc
  have mx : ∀ v, imageX k p = v → v ∈ (corners w2 h2).map (imageX k) := fun v e => List.mem_map.2 ⟨p, hp, e⟩
  have my : ∀ v, imageY k p = v → v ∈ (corners w2 h2).map (imageY k) := fun v e => List.mem_map.2 ⟨p, hp, e⟩
  have inX : (Dbl.pinf ∈ (corners w2 h2).map (imageX k) ∨ Dbl.ninf ∈ (corners w2 h2).map (imageX k)) ∨
      (Dbl.pinf ∈ (corners w2 h2).map (imageY k) ∨ Dbl.ninf ∈ (corners w2 h2).map (imageY k)) := by
    rcases h with h | h | h | h
    · exact .inl (.inl (mx _ h))
    · exact .inl (.inr (mx _ h))
    · exact .inr (.inl (my _ h))
    · exact .inr (.inr (my _ h))
  rcases inX with hx | hy
  · rw [span_infinite ⟨0, rfl⟩ ⟨_, ofNat_eq hw1⟩ hx]
    rfl
  · rcases toIndex_cases ((highest (.ofNat w1) ((corners w2 h2).map (imageX k))).sub
      (lowest (.num 0) ((corners w2 h2).map (imageX k)))).ceil with e | ⟨n, e⟩
    · rw [e]; rfl
    · rw [e, Res.ok_bind, span_infinite ⟨0, rfl⟩ ⟨_, ofNat_eq hh1⟩ hy]
      rfl

/-- A homography with an inverse that sends the corner `(1, 0)` of a picture of two columns to infinity. -/
def leaving : Matrix (Fin 3) (Fin 3) ℝ := !![1, 0, 0; 0, 1, 0; 1, 0, 1]

theorem rnd_small {x : ℝ} {n : ℤ} (h : x = n) (hn : |n| ≤ 2 ^ 50) : Dbl.rnd x = .num n := by
  rw [h]
  have e : dbl (n : ℝ) = n := dbl_int (hn.trans (by norm_num))
  have hb : |(n : ℝ)| ≤ 2 ^ 50 := by exact_mod_cast hn
  rw [(rnd_within hb (by norm_num)).1, e]

theorem leaving_inverse : invertD (homOfMat leaving) = some (homOfMat !![1, 0, 0; 0, 1, 0; -1, 0, 1]) := by
  have r0 : Dbl.rnd 0 = .num 0 := by simpa using rnd_small (x := 0) (n := 0) (by simp) (by norm_num)
  have r1 : Dbl.rnd 1 = .num 1 := by simpa using rnd_small (x := 1) (n := 1) (by simp) (by norm_num)
  have rm : Dbl.rnd (-1) = .num (-1) := by simpa using rnd_small (x := -1) (n := -1) (by simp) (by norm_num)
  have hd : detD (homOfMat leaving) = .num 1 := by
    simp [detD, crossD, homOfMat, leaving, Dbl.mul, Dbl.sub, Dbl.neg, Dbl.add, r0, r1, rm]
  have hl : dbl (1 / 10 ^ 9) < 1 := by
    have h := dbl_err (1 / 10 ^ 9)
    rw [abs_of_pos (show (0 : ℝ) < 1 / 10 ^ 9 by norm_num), abs_le] at h
    have he : eps ≤ 1 := by unfold eps; norm_num
    have := h.2
    nlinarith
  unfold invertD
  rw [hd, if_neg]
  · simp [crossD, homOfMat, leaving, Dbl.mul, Dbl.sub, Dbl.neg, Dbl.add, Dbl.div, r0, r1, rm]
  · show ¬ |(1 : ℝ)| < dbl (1 / 10 ^ 9)
    rw [abs_one]
    exact not_lt.2 hl.le

/-- Every homography whose inverse sends a corner to infinity makes the call undefined, for all pictures, sampling
methods and orders; such a homography is the shear `leaving`, whose determinant is one, with a picture of two columns. -/
theorem C225_infinity_violation (interp : Image Rgb → Dbl → Dbl → Res Rgb) (orderW orderB : Nat → Nat → List Nat)
    {img1 img2 : Image Rgb} {w1 h1 w2 h2 : Nat} {f1 f2 : Nat → Nat → Rgb} (s1 : img1.Shows w1 h1 f1)
    (s2 : img2.Shows w2 h2 f2) (hw1 : w1 ≤ 2 ^ 53) (hh1 : h1 ≤ 2 ^ 53) (hw : 0 < w2) (hh : 0 < h2) (hw' : w2 ≤ 2 ^ 53)
    (hh' : h2 ≤ 2 ^ 53) :
    (∀ H k, invertD H = some k → (∃ p ∈ corners w2 h2, imageX k p = .pinf ∨ imageX k p = .ninf ∨ imageY k p = .pinf ∨
      imageY k p = .ninf) → stitchD interp orderW orderB img1 img2 H = .ub) ∧
    leaving.det = 1 ∧ (w2 = 2 → stitchD interp orderW orderB img1 img2 (homOfMat leaving) = .ub) := by
  refine ⟨fun H k hk hc => infinite_ub interp orderW orderB s1 s2 hw1 hh1 hw hh hw' hh' H k hk hc, ?_, fun e => ?_⟩
  · simp [leaving, Matrix.det_fin_three]
  · subst e
    refine infinite_ub interp orderW orderB s1 s2 hw1 hh1 hw hh hw' hh' _ _ leaving_inverse
      ⟨(1, 0), by simp [corners], .inl ?_⟩
    have r0 : Dbl.rnd 0 = .num 0 := by simpa using rnd_small (x := 0) (n := 0) (by simp) (by norm_num)
    have r1 : Dbl.rnd 1 = .num 1 := by simpa using rnd_small (x := 1) (n := 1) (by simp) (by norm_num)
    have rm : Dbl.rnd (-1) = .num (-1) := by simpa using rnd_small (x := -1) (n := -1) (by simp) (by norm_num)
    simp [imageX, rowD, homOfMat, Dbl.ofNat, Dbl.mul, Dbl.add, Dbl.div, Dbl.infTimes, r0, r1, rm]

/-! ### NaN -/

theorem allNan_image {k : Sp.Hom} (h : ∀ v ∈ k.entries, v = .nan) (p : Nat × Nat) :
    imageX k p = .nan ∧ imageY k p = .nan := by
  simp only [Hom.entries, List.mem_cons, List.not_mem_nil, or_false, forall_eq_or_imp, forall_eq] at h
  obtain ⟨h1, h2, h3, h4, h5, h6, h7, h8, h9⟩ := h
  unfold imageX imageY rowD
  rw [h1, h2, h3, h4, h5, h6, h7, h8, h9]
  exact ⟨rfl, rfl⟩

theorem low_nan (a : Dbl) (l : List Dbl) (h : ∀ v ∈ l, v = .nan) : lowest a l = a := by
  induction l with
  | nil => rfl
  | cons v l ih =>
    obtain rfl := h v (by simp)
    show lowest (if Dbl.nan.lt a then _ else _) l = _
    rw [if_neg (show ¬ Dbl.nan.lt a from fun h => by cases a <;> exact h)]
    exact ih fun v hv => h v (by simp [hv])

theorem high_nan (a : Dbl) (l : List Dbl) (h : ∀ v ∈ l, v = .nan) : highest a l = a := by
  induction l with
  | nil => rfl
  | cons v l ih =>
    obtain rfl := h v (by simp)
    show highest (if a.lt .nan then _ else _) l = _
    rw [if_neg (show ¬ a.lt .nan from fun h => by cases a <;> exact h)]
    exact ih fun v hv => h v (by simp [hv])

theorem mulD_nan (a : Sp.Hom) {k : Sp.Hom} (h : ∀ v ∈ k.entries, v = .nan) : Dbl.nan ∈ (mulD a k).entries := by
  simp only [Hom.entries, List.mem_cons, List.not_mem_nil, or_false, forall_eq_or_imp, forall_eq] at h
  obtain ⟨h1, h2, h3, h4, h5, h6, h7, h8, h9⟩ := h
  simp only [Hom.entries, mulD, List.mem_cons]
  left
  unfold dot3D
  rw [h7, muln, addn]

/-- A homography with a NaN anywhere: the stitched picture is the first picture, nothing more, for all second pictures,
sampling methods and orders. The failure is not reported. -/
theorem C225_nan_violation (interp : Image Rgb → Dbl → Dbl → Res Rgb) (orderW orderB : Nat → Nat → List Nat)
    (hoW : ∀ w h, (orderW w h).Perm (List.range (w * h))) (hoB : ∀ w h, (orderB w h).Perm (List.range (w * h)))
    {img1 img2 : Image Rgb} {w1 h1 w2 h2 : Nat} {f1 f2 : Nat → Nat → Rgb} (s1 : img1.Shows w1 h1 f1)
    (s2 : img2.Shows w2 h2 f2) (hw1 : w1 ≤ 2 ^ 53) (hh1 : h1 ≤ 2 ^ 53) (hw : 0 < w2) (hh : 0 < h2) (hw' : w2 ≤ 2 ^ 53)
    (hh' : h2 ≤ 2 ^ 53) (H : Sp.Hom) (hn : Dbl.nan ∈ H.entries) :
    ∃ out, stitchD interp orderW orderB img1 img2 H = .ok out ∧ out.Shows w1 h1 f1 := by
  have b1 : w1 < 2 ^ 64 := lt_of_le_of_lt hw1 (by norm_num)
  have b2 : h1 < 2 ^ 64 := lt_of_le_of_lt hh1 (by norm_num)
  obtain ⟨⟨k, hk, hall⟩, -⟩ := C221_nan_violation ((0, 0, 0) : Rgb) (interp img2) H hn w1 h1 b1 b2 s1.fits _ (hoW w1 h1)
  have nx : ∀ v ∈ (corners w2 h2).map (imageX k), v = .nan := by
    intro v hv
    obtain ⟨p, -, rfl⟩ := List.mem_map.1 hv
    exact (allNan_image hall p).1
  have ny : ∀ v ∈ (corners w2 h2).map (imageY k), v = .nan := by
    intro v hv
    obtain ⟨p, -, rfl⟩ := List.mem_map.1 hv
    exact (allNan_image hall p).2
  have nsub : ∀ n : Nat, n ≤ 2 ^ 53 → (Dbl.ofNat n).sub (.num 0) = .num n := by
    intro n hn
    rw [ofNat_eq hn]
    show Dbl.rnd ((n : ℝ) + -0) = _
    rw [neg_zero, add_zero]
    exact ofNat_eq hn
  have nadd' : ∀ n : Nat, n ≤ 2 ^ 53 → (Dbl.num 0).add (Dbl.ofNat n) = .num n := by
    intro n hn
    rw [ofNat_eq hn]
    show Dbl.rnd (0 + (n : ℝ)) = _
    rw [zero_add]
    exact ofNat_eq hn
  have nidx : ∀ n : Nat, n ≤ 2 ^ 53 → (Dbl.num n).toIndex = .ok n := fun n hn =>
    toSize_nat (lt_of_le_of_lt hn (by norm_num))
  have nceil : ∀ n : Nat, (Dbl.num n).ceil = .num n := by
    intro n
    show Dbl.num ((⌈(n : ℝ)⌉ : ℤ) : ℝ) = _
    rw [Int.ceil_natCast, Int.cast_natCast]
  have neg0 : (Dbl.num 0).neg = .num 0 := by
    show Dbl.num (-0) = _
    rw [neg_zero]
  have z0 : (Dbl.num 0).toIndex = .ok 0 := by
    have := nidx 0 (by norm_num)
    simpa using this
  obtain ⟨-, warped, ew, sw⟩ := C221_nan_violation ((0, 0, 0) : Rgb) (interp img2)
    (mulD (shiftD (.num 0) (.num 0)) k) (mulD_nan _ hall) w1 h1 b1 b2 s1.fits _ (hoW w1 h1)
  obtain ⟨out, e, so⟩ := loop_someWrite (w := w1) (h := h1) (fun idx : Nat => (idx % w1, idx / w1)) (fun _ => true) f1
    (fun out idx => do
      let y ← udiv idx w1
      let x ← umod idx w1
      featherPixel img1 warped (.num 0) (.num 0) out x y) (orderB w1 h1)
    (by
      intro i hi
      have hlt : i < w1 * h1 := List.mem_range.1 ((hoB w1 h1).mem_iff.1 hi)
      have hpos : 0 < w1 := Nat.pos_of_ne_zero (by rintro rfl; simp at hlt)
      exact ⟨Nat.mod_lt _ hpos, Nat.div_lt_of_lt_mul hlt⟩)
    (by
      intro i hi _ im
      have hlt : i < w1 * h1 := List.mem_range.1 ((hoB w1 h1).mem_iff.1 hi)
      have hpos : 0 < w1 := Nat.pos_of_ne_zero (by rintro rfl; simp at hlt)
      have hx : i % w1 < w1 := Nat.mod_lt _ hpos
      have hy : i / w1 < h1 := Nat.div_lt_of_lt_mul hlt
      simp only [udiv, umod, hpos.ne', if_false, Res.ok_bind]
      unfold featherPixel
      simp only [s1.width, s1.height, nadd' w1 hw1, nadd' h1 hh1, nsub _ (hx.le.trans hw1), nsub _ (hy.le.trans hh1), z0,
        nidx w1 hw1, nidx h1 hh1, nidx _ (hx.le.trans hw1), nidx _ (hy.le.trans hh1), sw.px _ _ hx hy, s1.px _ _ hx hy,
        Res.ok_bind, hasContent, hx, hy]
      simp)
    (by simp)
    (by
      intro x y hx hy
      refine ⟨y * w1 + x, (hoB w1 h1).mem_iff.2 (List.mem_range.2 ?_), ?_⟩
      · calc y * w1 + x < y * w1 + w1 := by omega
          _ = (y + 1) * w1 := by ring
          _ ≤ h1 * w1 := Nat.mul_le_mul_right _ hy
          _ = w1 * h1 := Nat.mul_comm _ _
      · rw [Nat.mul_add_mod_of_lt hx, Nat.mul_comm y, Nat.mul_add_div (by omega), Nat.div_eq_of_lt hx, add_zero])
    (ofSizes_shows ((0, 0, 0) : Rgb) b1 b2 s1.fits)
  refine ⟨out, ?_, by simpa using so⟩
  unfold stitchD
  rw [hk]
  simp only [s1.width, s1.height, s2.width, s2.height, boundsD_eq k w1 h1 hw hh hw' hh', Res.ok_bind, low_nan _ _ nx,
    low_nan _ _ ny, high_nan _ _ nx, high_nan _ _ ny, nsub w1 hw1, nsub h1 hh1, nceil, nidx w1 hw1, nidx h1 hh1, neg0, ew]
  exact e

/-- Without an inverse the result is the empty picture. -/
theorem C225_empty (interp : Image Rgb → Dbl → Dbl → Res Rgb) (orderW orderB : Nat → Nat → List Nat)
    (img1 img2 : Image Rgb) (H : Sp.Hom) (h : invertD H = none) :
    stitchD interp orderW orderB img1 img2 H = .ok ⟨[], []⟩ := by
  unfold stitchD
  rw [h]

/-! ### Moving the homography and blending -/

theorem moved_err (a b : ℝ) : |dbl (a + dbl b) - (a + b)| ≤ 3 * eps * (|a| + |b|) := by
  have h1 := dbl_err (a + dbl b)
  have h2 := dbl_err b
  have h3 := dbl_abs b
  have h4 := abs_add_le a (dbl b)
  have h5 := abs_add_le (dbl (a + dbl b) - (a + dbl b)) (dbl b - b)
  have he := eps_pos
  have e : dbl (a + dbl b) - (a + b) = (dbl (a + dbl b) - (a + dbl b)) + (dbl b - b) := by ring
  rw [e]
  have h6 : eps * |a + dbl b| ≤ eps * (|a| + 2 * |b|) := mul_le_mul_of_nonneg_left (by linarith) he.le
  have h7 := abs_nonneg a
  nlinarith

theorem dot3_unit {x y z t : ℝ} (hx : dbl x = x) (bx : |x| ≤ 2 ^ 100) (bz : |z| ≤ 2 ^ 100)
    (bt : |t| ≤ 2 ^ 100) : dot3D (.num 1) (.num 0) (.num t) (.num x) (.num y) (.num z) = .num (dbl (x + dbl (t * z))) ∧
      dot3D (.num 0) (.num 1) (.num t) (.num y) (.num x) (.num z) = .num (dbl (x + dbl (t * z))) := by
  have r0 : Dbl.rnd 0 = .num 0 := by simpa using rnd_small (x := 0) (n := 0) (by simp) (by norm_num)
  have rx : Dbl.rnd x = .num x := by
    rw [(rnd_within bx (by norm_num)).1, hx]
  have htz : |t * z| ≤ 2 ^ 200 := by
    rw [abs_mul]
    exact (mul_le_mul bt bz (abs_nonneg _) (by positivity)).trans (by norm_num)
  obtain ⟨e, b⟩ := rnd_within htz (by norm_num)
  have hs : |x + dbl (t * z)| ≤ 2 ^ 202 := by
    refine (abs_add_le _ _).trans ((add_le_add bx b).trans ?_)
    norm_num
  obtain ⟨e', -⟩ := rnd_within hs (by norm_num)
  constructor <;>
    simp only [dot3D, Dbl.mul, Dbl.add, one_mul, zero_mul, rx, r0, zero_add, add_zero, e, e']

theorem dot3_last {x y z : ℝ} (hz : dbl z = z) (bz : |z| ≤ 2 ^ 100) :
    dot3D (.num 0) (.num 0) (.num 1) (.num x) (.num y) (.num z) = .num z := by
  have r0 : Dbl.rnd 0 = .num 0 := by simpa using rnd_small (x := 0) (n := 0) (by simp) (by norm_num)
  have rz : Dbl.rnd z = .num z := by
    rw [(rnd_within bz (by norm_num)).1, hz]
  simp only [dot3D, Dbl.mul, Dbl.add, one_mul, zero_mul, rz, r0, zero_add, add_zero]

/-- Moving the homography by the offset of the canvas: the third row stays, the offsets are added to the first two rows
with two roundings. -/
theorem C225_shift (K : Matrix (Fin 3) (Fin 3) ℝ) (hK : ∀ i j, dbl (K i j) = K i j ∧ |K i j| ≤ 2 ^ 100) (tx ty : ℝ)
    (hx : |tx| ≤ 2 ^ 100) (hy : |ty| ≤ 2 ^ 100) :
    ∃ F : Matrix (Fin 3) (Fin 3) ℝ, mulD (shiftD (.num tx) (.num ty)) (homOfMat K) = homOfMat F ∧
      (∀ j, F 2 j = K 2 j) ∧
      (∀ j, |F 0 j - (K 0 j + tx * K 2 j)| ≤ 3 / 2 ^ 53 * (|K 0 j| + |tx * K 2 j|)) ∧
      (∀ j, |F 1 j - (K 1 j + ty * K 2 j)| ≤ 3 / 2 ^ 53 * (|K 1 j| + |ty * K 2 j|)) := by
  have he : 3 * eps = 3 / 2 ^ 53 := by unfold eps; norm_num
  refine ⟨fun i j => if i = 0 then dbl (K 0 j + dbl (tx * K 2 j)) else if i = 1 then dbl (K 1 j + dbl (ty * K 2 j))
    else K 2 j, ?_, fun j => by simp, fun j => ?_, fun j => ?_⟩
  · have a : ∀ j, dot3D (.num 1) (.num 0) (.num tx) (.num (K 0 j)) (.num (K 1 j)) (.num (K 2 j)) =
        .num (dbl (K 0 j + dbl (tx * K 2 j))) := fun j =>
      (dot3_unit (y := K 1 j) (hK 0 j).1 (hK 0 j).2 (hK 2 j).2 hx).1
    have b : ∀ j, dot3D (.num 0) (.num 1) (.num ty) (.num (K 0 j)) (.num (K 1 j)) (.num (K 2 j)) =
        .num (dbl (K 1 j + dbl (ty * K 2 j))) := fun j =>
      (dot3_unit (y := K 0 j) (hK 1 j).1 (hK 1 j).2 (hK 2 j).2 hy).2
    have c : ∀ j, dot3D (.num 0) (.num 0) (.num 1) (.num (K 0 j)) (.num (K 1 j)) (.num (K 2 j)) = .num (K 2 j) := fun j =>
      dot3_last (hK 2 j).1 (hK 2 j).2
    simp [mulD, shiftD, homOfMat, a, b, c]
  · have := moved_err (K 0 j) (tx * K 2 j)
    rw [he] at this
    simpa using this
  · have := moved_err (K 1 j) (ty * K 2 j)
    rw [he] at this
    simpa using this

/-- Blending two 8-bit values in any column of the first picture: never undefined, and the result is at most the larger
and at least one less than the smaller. -/
theorem C225_feather_partial (width x : Nat) (hx : x < width) (hw : width ≤ 2 ^ 53) (a b : Nat) (ha : a < 256)
    (hb : b < 256) : ∃ v, feather a b ((Dbl.ofNat x).div (Dbl.ofNat width)) = .ok v ∧ OneBelow (min a b) (max a b) v := by
  have hw0 : (0 : ℝ) < width := by exact_mod_cast (by omega : 0 < width)
  have q0 : (0 : ℝ) ≤ (x : ℝ) / width := by positivity
  have q1 : (x : ℝ) / width ≤ ((1 : Nat) : ℝ) := by
    rw [Nat.cast_one, div_le_one hw0]; exact_mod_cast hx.le
  have t0 := dbl_nonneg q0
  have t1 := dbl_le_nat (by norm_num) q1
  rw [Nat.cast_one] at t1
  have hal : (Dbl.ofNat x).div (Dbl.ofNat width) = .num (dbl ((x : ℝ) / width)) := by
    rw [ofNat_eq (by omega), ofNat_eq hw]
    show (if (width : ℝ) = 0 then _ else Dbl.rnd _) = _
    rw [if_neg hw0.ne']
    exact rnd_nat (n := 1) (by norm_num) (by rw [abs_of_nonneg q0]; exact q1)
  rw [hal]
  generalize dbl ((x : ℝ) / width) = t at *
  have cast : ∀ {m n : Nat}, m ≤ n → (m : ℝ) ≤ n := fun h => by exact_mod_cast h
  have hl0 : (0 : ℝ) ≤ (min a b : Nat) := by positivity
  obtain ⟨r1, r2⟩ := mix_bounds t0 t1 hl0 (cast (min_le_left a b)) (cast (le_max_left a b)) (cast (min_le_right a b))
    (cast (le_max_right a b))
  have he := eps_pos
  have he' : eps ≤ 1 / 2 := by unfold eps; norm_num
  have p1 : (1 - eps) ^ 6 ≤ (1 - eps) ^ 3 :=
    pow_le_pow_of_le_one (by linarith) (by linarith) (by norm_num)
  have p2 : (1 + eps) ^ 3 ≤ (1 + eps) ^ 6 := pow_le_pow_right₀ (by linarith) (by norm_num)
  obtain ⟨v0, v1, v2⟩ := floor_oneBelow (by omega) (by omega) ((mul_le_mul_of_nonneg_right p1 hl0).trans r1)
    (r2.trans (mul_le_mul_of_nonneg_right p2 (by positivity)))
  have hmax : ((max a b : Nat) : ℝ) ≤ 255 := by exact_mod_cast (by omega : max a b ≤ 255)
  refine ⟨_, ?_, v2⟩
  have s1 : (Dbl.num 1).sub (.num t) = .num (dbl (1 - t)) := by
    show Dbl.rnd (1 + -t) = _
    rw [← sub_eq_add_neg]
    exact rnd_nat (n := 1) (by norm_num) (by rw [abs_of_nonneg (by linarith)]; push_cast; linarith)
  have d1 : |dbl (1 - t)| ≤ (1 : Nat) :=
    dbl_abs_le_nat (n := 1) (by norm_num) (by rw [abs_of_nonneg (by linarith)]; push_cast; linarith)
  have ra : ((a : ℝ)) ≤ 255 := by exact_mod_cast (by omega : a ≤ 255)
  have rb : ((b : ℝ)) ≤ 255 := by exact_mod_cast (by omega : b ≤ 255)
  have m1 : |(a : ℝ) * dbl (1 - t)| ≤ (255 : Nat) := by
    rw [abs_mul, Nat.abs_cast]
    push_cast at d1 ⊢
    nlinarith [abs_nonneg (dbl (1 - t)), Nat.cast_nonneg (α := ℝ) a]
  have m2 : |(b : ℝ) * t| ≤ (255 : Nat) := by
    rw [abs_mul, Nat.abs_cast, abs_of_nonneg t0]
    push_cast
    nlinarith [Nat.cast_nonneg (α := ℝ) b]
  have n1 := dbl_abs_le_nat (n := 255) (by norm_num) m1
  have n2 := dbl_abs_le_nat (n := 255) (by norm_num) m2
  have m3 : |dbl ((a : ℝ) * dbl (1 - t)) + dbl ((b : ℝ) * t)| ≤ (510 : Nat) := by
    refine (abs_add_le _ _).trans ?_
    push_cast at n1 n2 ⊢
    linarith
  have e : ((Dbl.ofNat a).mul ((Dbl.num 1).sub (.num t))).add ((Dbl.ofNat b).mul (.num t)) = .num (mixD a b t) := by
    rw [s1, ofNat_eq (n := a) (by omega), ofNat_eq (n := b) (by omega)]
    show (Dbl.rnd _).add (Dbl.rnd _) = _
    rw [rnd_nat (by norm_num) m1, rnd_nat (by norm_num) m2]
    exact rnd_nat (by norm_num) m3
  unfold feather
  rw [e]
  exact if_pos ⟨by linarith, by linarith⟩

/-- In the first column of the first picture the blended value is the first picture's. -/
theorem C225_left (width : Nat) (h0 : 0 < width) (hw : width ≤ 2 ^ 53) (a b : Nat) (ha : a < 256) (hb : b < 256) :
    feather a b ((Dbl.ofNat 0).div (Dbl.ofNat width)) = .ok a := by
  have hw0 : (width : ℝ) ≠ 0 := by exact_mod_cast h0.ne'
  have r0 : Dbl.rnd 0 = .num 0 := by simpa using rnd_small (x := 0) (n := 0) (by simp) (by norm_num)
  have r1 : Dbl.rnd 1 = .num 1 := by simpa using rnd_small (x := 1) (n := 1) (by simp) (by norm_num)
  have ra : Dbl.rnd (a : ℝ) = .num a := by
    rw [rnd_nat (n := a) (by omega) (by rw [Nat.abs_cast]), dbl_nat (by omega)]
  have e : ((Dbl.ofNat a).mul ((Dbl.num 1).sub (.num 0))).add ((Dbl.ofNat b).mul (.num 0)) = .num a := by
    rw [ofNat_eq (n := a) (by omega), ofNat_eq (n := b) (by omega)]
    simp only [Dbl.sub, Dbl.neg, Dbl.add, Dbl.mul, neg_zero, add_zero, r1, mul_one, mul_zero, ra, r0]
  have d : (Dbl.ofNat 0).div (Dbl.ofNat width) = .num 0 := by
    rw [ofNat_eq (by omega), ofNat_eq hw]
    show (if (width : ℝ) = 0 then _ else Dbl.rnd _) = _
    rw [if_neg hw0, Nat.cast_zero, zero_div, r0]
  unfold feather
  rw [d, e]
  have ha' : (a : ℝ) < 256 := by exact_mod_cast ha
  have := Nat.cast_nonneg (α := ℝ) a
  refine (if_pos ⟨by linarith, by linarith⟩).trans ?_
  simp

/-! The identity and pictures of two by two pixels. -/

theorem identity_corners : ∀ p ∈ corners 2 2, imageX (homOfMat 1) p = .num p.1 ∧ imageY (homOfMat 1) p = .num p.2 := by
  have r0 : Dbl.rnd 0 = .num 0 := by simpa using rnd_small (x := 0) (n := 0) (by simp) (by norm_num)
  have r1 : Dbl.rnd 1 = .num 1 := by simpa using rnd_small (x := 1) (n := 1) (by simp) (by norm_num)
  intro p hp
  simp only [corners, List.mem_cons, List.not_mem_nil, or_false] at hp
  rcases hp with rfl | rfl | rfl | rfl <;>
    simp [imageX, imageY, rowD, homOfMat, Dbl.ofNat, Dbl.mul, Dbl.add, Dbl.div, r0, r1]

example := C225_bounds_partial (homOfMat 1) (w1 := 1) (h1 := 7) (w2 := 2) (h2 := 2) (by norm_num) (by norm_num)
  (by norm_num) (by norm_num) (by norm_num) (by norm_num)
  (fun p hp => by rw [(identity_corners p hp).1]; simp) (fun p hp => by rw [(identity_corners p hp).2]; simp)

theorem grey_shows : (Image.ofSizes ((9, 9, 9) : Rgb) [2, 2]).Shows 2 2 (fun _ _ => (9, 9, 9)) :=
  ofSizes_shows _ (by norm_num) (by norm_num) (by norm_num)

example := (C225_infinity_violation (fun _ _ _ => .ok (1, 2, 3)) (fun w h => List.range (w * h))
  (fun w h => List.range (w * h)) grey_shows grey_shows (by norm_num) (by norm_num) (by norm_num) (by norm_num) (by norm_num)
  (by norm_num)).2.2 rfl

example := C225_nan_violation (fun _ _ _ => .ok (1, 2, 3)) (fun w h => List.range (w * h))
  (fun w h => List.range (w * h)) (fun _ _ => .refl _) (fun _ _ => .refl _) grey_shows grey_shows (by norm_num)
  (by norm_num) (by norm_num) (by norm_num) (by norm_num) (by norm_num)
  ⟨.num 1, .num 0, .num 0, .num 0, .nan, .num 0, .num 0, .num 0, .num 1⟩ (by simp [Hom.entries])

example : (5 : Nat) < 7 ∧ (7 : Nat) ≤ 2 ^ 53 := by norm_num

example := C225_shift 1 (fun i j => by fin_cases i <;> fin_cases j <;> simp [dbl_one, dbl_zero] <;> norm_num) 3 (-2)
  (by norm_num) (by norm_num)

end TinyDIP.Props
