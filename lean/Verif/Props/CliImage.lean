import Verif.Model.CliImage
import Verif.Props.CliCompose
import Verif.Props.Generate
import Verif.Lemmas.Bundle
import Verif.Props.Workspace
import Verif.Props.Elements
import Mathlib.Algebra.BigOperators.Group.List.Lemmas
import Mathlib.Algebra.Order.BigOperators.Group.List

/-!
# Properties C127, C128, C129: the commands subimage, info, print, vars, write and rand
-/

namespace TinyDIP.Props

open TinyDIP.Cli Spec.Gen

variable {F α : Type}

/-! ## C127 -/

theorem parseSize_nodigit {s : Str} (hs : ∀ c ∈ s, ¬ c.isDigit) : parseSize s = none := by
  have hsub : ∀ c ∈ sanitize s, ¬ c.isDigit := by
    intro c hc
    apply hs c
    unfold sanitize at hc
    have h1 := (List.dropWhile_sublist _).subset hc
    rw [List.mem_reverse] at h1
    have h2 := (List.dropWhile_sublist _).subset h1
    rwa [List.mem_reverse] at h2
  have : (sanitize s).takeWhile Char.isDigit = [] := by
    cases hz : sanitize s with
    | nil => rfl
    | cons c l => rw [List.takeWhile_cons, if_neg (hsub c (by simp [hz]))]
  simp [parseSize, this]

theorem cropLoop_ok {im : Image α} {W H w h x0 y0 : Nat} {f : Nat → Nat → α} (zero : α)
    (s : im.Shows W H f) (hx : x0 + w ≤ W) (hy : y0 + h ≤ H) (pts : List (Nat × Nat))
    (hp : ∀ x y, (x, y) ∈ pts ↔ x < w ∧ y < h) :
    ∃ out, cropLoop im x0 y0 pts (Image.ofSizes zero [w, h]) = .ok out ∧
      out.Shows w h fun x y => f (x0 + x) (y0 + y) := by
  have hW := s.w_lt
  have hH := s.h_lt
  have hWH := s.fits
  unfold cropLoop
  refine loop_fill (fun p => p) _ _ _ ?_ ?_ _ _ (ofSizes_shows _ (by omega) (by omega)
    (lt_of_le_of_lt (Nat.mul_le_mul (by omega) (by omega)) hWH))
  · rintro ⟨x, y⟩ hm o g so
    obtain ⟨hx', hy'⟩ := (hp x y).mp hm
    dsimp only
    rw [wadd_of_lt (by omega), wadd_of_lt (by omega), s.px _ _ (by omega) (by omega), Res.ok_bind,
      Nat.add_comm x, Nat.add_comm y]
    exact so.set2 hx' hy' _
  · intro x y hx hy
    exact ⟨(x, y), (hp x y).mpr ⟨hx, hy⟩, rfl⟩

/-- The operation itself, for pixels of any type: a window inside the image gives the pixels of the
window, with any policy word and in any order of the indices. -/
theorem cropCore_ok {im : Image α} {W H w h x0 y0 : Nat} {f : Nat → Nat → α} (zero : α)
    (s : im.Shows W H f) (hx : x0 + w ≤ W) (hy : y0 + h ≤ H) (policy : Str) (order : List Nat)
    (ho : order.Perm (List.range (w * h))) :
    ∃ out, cropCore zero order policy x0 y0 w h im = .done out ∧
      out.Shows w h fun x y => f (x0 + x) (y0 + y) := by
  obtain ⟨o1, e1, s1⟩ := cropLoop_ok zero s hx hy (splitIdx w order) (splitIdx_mem ho)
  obtain ⟨o2, e2, s2⟩ := cropLoop_ok zero s hx hy (iterYX w h) (fun x y => mem_iterYX)
  have he : o1 = o2 := s1.ext s2 fun _ _ _ _ => rfl
  subst he
  have hW := s.w_lt
  have hH := s.h_lt
  refine ⟨o1, ?_, s1⟩
  rw [cropCore, if_neg (by rw [s.size]; simp), s.width, s.height, wadd_of_lt (by omega),
    wadd_of_lt (by omega), if_neg (by omega)]
  simp only [e1, e2, dispatchPolicy]
  split_ifs <;> rfl

theorem cropCore_outside {im : Image α} {W H w h x0 y0 : Nat} {f : Nat → Nat → α} (zero : α)
    (s : im.Shows W H f) (hx : x0 + w < 2 ^ 64) (hy : y0 + h < 2 ^ 64) (hout : W < x0 + w ∨ H < y0 + h)
    (policy : Str) (order : List Nat) : cropCore zero order policy x0 y0 w h im = .threw := by
  rw [cropCore, if_neg (by rw [s.size]; simp), s.width, s.height, wadd_of_lt (by omega),
    wadd_of_lt (by omega), if_pos (by omega)]

theorem subimage_step (io : FileIO Pay F) (ext : Val Pay → Act (Val Pay)) (order : List Nat)
    (wd : World Pay F) (args : List Str) (v o : Str) (x0 y0 w h : Nat) (more : List Str) (u : Val Pay)
    (ha : argsFilter args = ('$' :: v) :: o :: Nat.toDigits 10 x0 :: Nat.toDigits 10 y0 ::
      Nat.toDigits 10 w :: Nat.toDigits 10 h :: more)
    (hx : x0 < 2 ^ 64) (hy : y0 < 2 ^ 64) (hw : w < 2 ^ 64) (hh : h < 2 ^ 64)
    (hv : wd.ws.retrieveAny v = some u) (ht : isMasterImage u.ty = true) :
    subimageCmd io ext order wd args =
      match cropVal ext order (extractPolicy args) x0 y0 w h u with
      | .ub => .ub
      | .threw => raise wd
      | .terminated => .ok ⟨wd, .terminated, none⟩
      | .done r =>
        if isMasterImage r.ty then .ok ⟨(saveArg io wd o r).1, (saveArg io wd o r).2, none⟩
        else quiet wd := by
  have px : parseSize (Nat.toDigits 10 x0) = some x0 := parseSize_toStr hx
  have py : parseSize (Nat.toDigits 10 y0) = some y0 := parseSize_toStr hy
  have pw : parseSize (Nat.toDigits 10 w) = some w := parseSize_toStr hw
  have ph : parseSize (Nat.toDigits 10 h) = some h := parseSize_toStr hh
  unfold subimageCmd transformU
  rw [ha]
  simp only [List.length_cons]
  rw [if_neg (by omega)]
  simp only [px, py, pw, ph, loadVar io isMasterImage wd v u hv ht]
  cases cropVal ext order (extractPolicy args) x0 y0 w h u <;> rfl

/-- `subimage $v $d x y w h` stores the `w × h` window of `v` whose top left pixel is `(x, y)`, for images
of numbers and of three-channel pixels, with any policy word and in any order of the indices; nothing
else changes. Full statement: a window that does not lie inside the image is reported as an error; see
`C127_outside_partial` and the violation. -/
theorem C127_window (io : FileIO Pay F) (ext : Val Pay → Act (Val Pay)) (order : List Nat)
    (wd : World Pay F) (args : List Str) (v d : Str) (x0 y0 w h : Nat) (more : List Str)
    (ha : plainWords args = ('$' :: v) :: ('$' :: d) :: Nat.toDigits 10 x0 :: Nat.toDigits 10 y0 ::
      Nat.toDigits 10 w :: Nat.toDigits 10 h :: more)
    (ho : order.Perm (List.range (w * h))) (W H : Nat) (hx : x0 + w ≤ W) (hy : y0 + h ≤ H) :
    (∀ (n : Num) (im : Image ℚ) (f : Nat → Nat → ℚ), im.Shows W H f →
      wd.ws.retrieveAny v = some (.atom (.image (.num n)) (.image im)) →
      ∃ out, Stored wd (subimageCmd io ext order wd args) d (.atom (.image (.num n)) (.image out)) ∧
        out.Shows w h fun x y => f (x0 + x) (y0 + y)) ∧
    (∀ (n : Nat) (im : Image (Px3 ℚ)) (f : Nat → Nat → Px3 ℚ), im.Shows W H f →
      wd.ws.retrieveAny v = some (.atom (.image (.scalar n)) (.image3 im)) →
      ∃ out, Stored wd (subimageCmd io ext order wd args) d (.atom (.image (.scalar n)) (.image3 out)) ∧
        out.Shows w h fun x y => f (x0 + x) (y0 + y)) := by
  simp only [← argsFilter_eq] at *
  constructor
  · intro n im f s hv
    have hW := s.w_lt
    have hH := s.h_lt
    obtain ⟨out, e, so⟩ := cropCore_ok 0 s hx hy (extractPolicy args) order ho
    refine ⟨out, stored_put _ _ _ _ ?_, so⟩
    rw [subimage_step io ext order wd args v _ x0 y0 w h more _ ha (by omega) (by omega) (by omega)
      (by omega) hv rfl]
    simp [cropVal, e, Val.ty, isMasterImage, saveArg, isVar, varName]
  · intro n im f s hv
    have hW := s.w_lt
    have hH := s.h_lt
    obtain ⟨out, e, so⟩ := cropCore_ok (⟨0, 0, 0⟩ : Px3 ℚ) s hx hy (extractPolicy args) order ho
    refine ⟨out, stored_put _ _ _ _ ?_, so⟩
    rw [subimage_step io ext order wd args v _ x0 y0 w h more _ ha (by omega) (by omega) (by omega)
      (by omega) hv rfl]
    simp [cropVal, e, Val.ty, isMasterImage, saveArg, isVar, varName]

/-- A 2 × 1 image, a window of one pixel and a policy word meet the hypotheses. -/
example : ∃ (wd : World Pay Unit) (im : Image ℚ),
    plainWords ["par".toList, "$v".toList, "$d".toList, "1".toList, "0".toList, "1".toList, "1".toList] =
      [['$', 'v'], ['$', 'd'], Nat.toDigits 10 1, Nat.toDigits 10 0, Nat.toDigits 10 1, Nat.toDigits 10 1] ∧
    wd.ws.retrieveAny ['v'] = some (.atom (.image (.num .double)) (.image im)) ∧
    im.Shows 2 1 (fun x _ => 7 + x) ∧ [0].Perm (List.range (1 * 1)) ∧ 1 + 1 ≤ 2 ∧ 0 + 1 ≤ 1 := by
  refine ⟨⟨⟨[(['v'], .atom (.image (.num .double)) (.image ⟨[2, 1], [7, 8]⟩))]⟩, ()⟩, ⟨[2, 1], [7, 8]⟩,
    by decide +kernel, rfl, ?_, by decide, by decide, by decide⟩
  refine Image.Shows.of_data (by norm_num) (by norm_num) (by norm_num) rfl rfl ?_
  intro x y hx hy
  obtain rfl : y = 0 := by omega
  obtain rfl | rfl : x = 0 ∨ x = 1 := by omega
  all_goals norm_num

/-- A window that reaches outside a two-dimensional image: the command fails and changes nothing, with or
without a policy word, as long as offset plus size does not exceed 64 bits. Full statement: for all
offsets, and for images of any number of dimensions; see the violation. -/
theorem C127_outside_partial (io : FileIO Pay F) (ext : Val Pay → Act (Val Pay)) (order : List Nat)
    (wd : World Pay F) (args : List Str) (v o : Str) (x0 y0 w h : Nat) (more : List Str)
    (ha : plainWords args = ('$' :: v) :: o :: Nat.toDigits 10 x0 :: Nat.toDigits 10 y0 ::
      Nat.toDigits 10 w :: Nat.toDigits 10 h :: more)
    (hx : x0 + w < 2 ^ 64) (hy : y0 + h < 2 ^ 64) (W H : Nat) (hout : W < x0 + w ∨ H < y0 + h) :
    (∀ (n : Num) (im : Image ℚ) (f : Nat → Nat → ℚ), im.Shows W H f →
      wd.ws.retrieveAny v = some (.atom (.image (.num n)) (.image im)) →
      Failed wd (subimageCmd io ext order wd args)) ∧
    (∀ (n : Nat) (im : Image (Px3 ℚ)) (f : Nat → Nat → Px3 ℚ), im.Shows W H f →
      wd.ws.retrieveAny v = some (.atom (.image (.scalar n)) (.image3 im)) →
      Failed wd (subimageCmd io ext order wd args)) := by
  simp only [← argsFilter_eq] at *
  constructor
  · intro n im f s hv
    have e := cropCore_outside 0 s hx hy hout (extractPolicy args) order
    unfold Failed
    rw [subimage_step io ext order wd args v _ x0 y0 w h more _ ha (by omega) (by omega) (by omega)
      (by omega) hv rfl]
    simp [cropVal, e, raise]
  · intro n im f s hv
    have e := cropCore_outside (⟨0, 0, 0⟩ : Px3 ℚ) s hx hy hout (extractPolicy args) order
    unfold Failed
    rw [subimage_step io ext order wd args v _ x0 y0 w h more _ ha (by omega) (by omega) (by omega)
      (by omega) hv rfl]
    simp [cropVal, e, raise]

example (io : FileIO Pay Unit) (ext : Val Pay → Act (Val Pay)) :=
  (C127_outside_partial io ext [0] ⟨⟨[(['v'], .atom (.image (.num .double)) (.image (picture 2 1 fun x _ => (x : ℚ))))]⟩, ()⟩
    ["par".toList, "$v".toList, "$d".toList, "1".toList, "0".toList, "2".toList, "1".toList] ['v'] ['$', 'd'] 1 0 2 1 []
    (by decide +kernel) (by decide) (by decide) 2 1 (.inl (by decide))).1 .double _ _ (picture_shows 2 1 _) rfl

/-- The largest offset and a width of two pass the check of the bounds, because their sum wraps around to
one: without a policy word the command fails, with a policy word the process ends. The same happens for
any window with pixels in an image of more than two dimensions. -/
theorem C127_outside_violation (io : FileIO Pay F) (ext : Val Pay → Act (Val Pay)) (wd : World Pay F)
    (o : Str) (ho : isPolicy o = false) :
    (wd.ws.retrieveAny "v".toList = some (.atom tyDouble (.image ⟨[2, 2], [1, 2, 3, 4]⟩)) →
      ∀ order : List Nat, order.Perm (List.range 2) →
        let args := ["$v".toList, o, Nat.toDigits 10 (2 ^ 64 - 1), ['0'], ['2'], ['1']]
        Failed wd (subimageCmd io ext order wd args) ∧
        subimageCmd io ext order wd ("par".toList :: args) = .ok ⟨wd, .terminated, none⟩) ∧
    (wd.ws.retrieveAny "v".toList = some (.atom tyDouble (.image ⟨[1, 1, 2], [1, 2]⟩)) →
        let args := ["$v".toList, o, ['0'], ['0'], ['1'], ['1']]
        Failed wd (subimageCmd io ext [0] wd args) ∧
        subimageCmd io ext [0] wd ("seq".toList :: args) = .ok ⟨wd, .terminated, none⟩) := by
  have hv : isPolicy "$v".toList = false := by decide +kernel
  have hpar : isPolicy "par".toList = true := by decide +kernel
  have hseq : isPolicy "seq".toList = true := by decide +kernel
  have h0 : isPolicy ['0'] = false := by decide +kernel
  have h1 : isPolicy ['1'] = false := by decide +kernel
  have h2 : isPolicy ['2'] = false := by decide +kernel
  have hb : isPolicy (Nat.toDigits 10 (2 ^ 64 - 1)) = false := by decide +kernel
  constructor
  · intro hr order hp args
    have ha : argsFilter args = ('$' :: "v".toList) :: o :: Nat.toDigits 10 (2 ^ 64 - 1) ::
        Nat.toDigits 10 0 :: Nat.toDigits 10 2 :: Nat.toDigits 10 1 :: [] := by
      simp only [args, argsFilter, hv, ho, hb, h0, h1, h2, Bool.false_eq_true, if_false]
      rfl
    have ha' : argsFilter ("par".toList :: args) = ('$' :: "v".toList) :: o ::
        Nat.toDigits 10 (2 ^ 64 - 1) :: Nat.toDigits 10 0 :: Nat.toDigits 10 2 :: Nat.toDigits 10 1 :: [] := by
      rw [← ha, argsFilter, hpar, if_pos rfl]
    have ex : extractPolicy args = [] := by
      simp only [args, extractPolicy, hv, ho, hb, h0, h1, h2, Bool.false_eq_true, if_false]
    have ex' : extractPolicy ("par".toList :: args) = sPar := by
      rw [extractPolicy, hpar, if_pos rfl]; decide +kernel
    have e1 : cropLoop (⟨[2, 2], [1, 2, 3, 4]⟩ : Image ℚ) (2 ^ 64 - 1) 0 (iterYX 2 1)
        (Image.ofSizes 0 [2, 1]) = .throw .outOfRange := by rfl
    have e2 : cropLoop (⟨[2, 2], [1, 2, 3, 4]⟩ : Image ℚ) (2 ^ 64 - 1) 0 (splitIdx 2 order)
        (Image.ofSizes 0 [2, 1]) = .throw .outOfRange := by
      have : order = [0, 1] ∨ order = [1, 0] := by
        have hl : order.length = 2 := by simpa using hp.length_eq
        obtain ⟨a, b, rfl⟩ := List.length_eq_two.mp hl
        have ha := (hp.mem_iff (a := a)).mp (by simp)
        have hb := (hp.mem_iff (a := b)).mp (by simp)
        have hn := hp.nodup_iff.mpr List.nodup_range
        simp at ha hb hn
        simp
        omega
      rcases this with rfl | rfl <;> rfl
    have c1 : cropCore (0 : ℚ) order [] (2 ^ 64 - 1) 0 2 1 ⟨[2, 2], [1, 2, 3, 4]⟩ = .threw := by
      rw [cropCore, if_neg (by simp), if_neg (by decide +kernel)]
      dsimp only
      rw [e1, e2]
      simp [dispatchPolicy, sPar, sParUnseq, sUnseq, sSeq]
    have c2 : cropCore (0 : ℚ) order sPar (2 ^ 64 - 1) 0 2 1 ⟨[2, 2], [1, 2, 3, 4]⟩ = .terminated := by
      rw [cropCore, if_neg (by simp), if_neg (by decide +kernel)]
      dsimp only
      rw [e1, e2]
      simp [dispatchPolicy, sPar, sParUnseq, sUnseq, sSeq]
    constructor
    · unfold Failed
      rw [subimage_step io ext order wd args _ _ _ _ _ _ _ _ ha (by decide) (by decide) (by decide)
        (by decide) hr rfl, ex, cropVal, c1]
      rfl
    · rw [subimage_step io ext order wd _ _ _ _ _ _ _ _ _ ha' (by decide) (by decide) (by decide)
        (by decide) hr rfl, ex', cropVal, c2]
  · intro hr args
    have ha : argsFilter args = ('$' :: "v".toList) :: o :: Nat.toDigits 10 0 ::
        Nat.toDigits 10 0 :: Nat.toDigits 10 1 :: Nat.toDigits 10 1 :: [] := by
      simp only [args, argsFilter, hv, ho, h0, h1, Bool.false_eq_true, if_false]
      rfl
    have ha' : argsFilter ("seq".toList :: args) = ('$' :: "v".toList) :: o :: Nat.toDigits 10 0 ::
        Nat.toDigits 10 0 :: Nat.toDigits 10 1 :: Nat.toDigits 10 1 :: [] := by
      rw [← ha, argsFilter, hseq, if_pos rfl]
    have ex : extractPolicy args = [] := by
      simp only [args, extractPolicy, hv, ho, h0, h1, Bool.false_eq_true, if_false]
    have ex' : extractPolicy ("seq".toList :: args) = sSeq := by
      rw [extractPolicy, hseq, if_pos rfl]; decide +kernel
    have e1 : cropLoop (⟨[1, 1, 2], [1, 2]⟩ : Image ℚ) 0 0 (iterYX 1 1) (Image.ofSizes 0 [1, 1]) =
      .throw .runtime := by rfl
    have e2 : cropLoop (⟨[1, 1, 2], [1, 2]⟩ : Image ℚ) 0 0 (splitIdx 1 [0]) (Image.ofSizes 0 [1, 1]) =
      .throw .runtime := by rfl
    have c1 : cropCore (0 : ℚ) [0] [] 0 0 1 1 ⟨[1, 1, 2], [1, 2]⟩ = .threw := by
      rw [cropCore, if_neg (by simp), if_neg (by decide +kernel)]
      dsimp only
      rw [e1, e2]
      simp [dispatchPolicy, sPar, sParUnseq, sUnseq, sSeq]
    have c2 : cropCore (0 : ℚ) [0] sSeq 0 0 1 1 ⟨[1, 1, 2], [1, 2]⟩ = .terminated := by
      rw [cropCore, if_neg (by simp), if_neg (by decide +kernel)]
      dsimp only
      rw [e1, e2]
      simp [dispatchPolicy, sPar, sParUnseq, sUnseq, sSeq]
    constructor
    · unfold Failed
      rw [subimage_step io ext [0] wd args _ _ _ _ _ _ _ _ ha (by decide) (by decide) (by decide)
        (by decide) hr rfl, ex, cropVal, c1]
      rfl
    · rw [subimage_step io ext [0] wd _ _ _ _ _ _ _ _ _ ha' (by decide) (by decide) (by decide)
        (by decide) hr rfl, ex', cropVal, c2]

/-- Fewer than six arguments, or a variable that does not exist or holds no image: nothing happens. An
offset or size that is no number: the command fails. A file that cannot be read: the command fails. -/
theorem C127_rejected (io : FileIO Pay F) (ext : Val Pay → Act (Val Pay)) (order : List Nat)
    (wd : World Pay F) (args : List Str) :
    ((plainWords args).length < 6 → Nothing wd (subimageCmd io ext order wd args)) ∧
    (∀ a b p more, plainWords args = a :: b :: p ++ more → p.length = 4 →
      (∃ t ∈ p, ∀ c ∈ t, ¬ c.isDigit) → Failed wd (subimageCmd io ext order wd args)) ∧
    (∀ v b x y w h more, plainWords args = ('$' :: v) :: b :: Nat.toDigits 10 x :: Nat.toDigits 10 y ::
        Nat.toDigits 10 w :: Nat.toDigits 10 h :: more →
      x < 2 ^ 64 → y < 2 ^ 64 → w < 2 ^ 64 → h < 2 ^ 64 →
      (∀ u, wd.ws.retrieveAny v = some u → ∀ t, u.ty ≠ .image t) →
      Nothing wd (subimageCmd io ext order wd args)) := by
  simp only [← argsFilter_eq] at *
  refine ⟨?_, ?_, ?_⟩
  · intro h
    unfold Nothing subimageCmd transformU
    rw [if_pos h]
    rfl
  · intro a b p more ha hp hbad
    obtain ⟨p1, p2, p3, p4, rfl⟩ : ∃ p1 p2 p3 p4, p = [p1, p2, p3, p4] := by
      match p, hp with
      | [p1, p2, p3, p4], _ => exact ⟨_, _, _, _, rfl⟩
    unfold Failed subimageCmd transformU
    rw [ha]
    simp only [List.cons_append, List.nil_append, List.length_cons]
    rw [if_neg (by omega)]
    obtain ⟨t, ht, hc⟩ := hbad
    have hn := parseSize_nodigit hc
    simp only [List.mem_cons, List.not_mem_nil, or_false] at ht
    rcases ht with rfl | rfl | rfl | rfl <;> simp only [hn]
    · rfl
    · cases parseSize p1 <;> rfl
    · cases parseSize p1 <;> cases parseSize p2 <;> rfl
    · cases parseSize p1 <;> cases parseSize p2 <;> cases parseSize p3 <;> rfl
  · intro v b x y w h more ha hx hy hw hh hv
    have px : parseSize (Nat.toDigits 10 x) = some x := parseSize_toStr hx
    have py : parseSize (Nat.toDigits 10 y) = some y := parseSize_toStr hy
    have pw : parseSize (Nat.toDigits 10 w) = some w := parseSize_toStr hw
    have ph : parseSize (Nat.toDigits 10 h) = some h := parseSize_toStr hh
    unfold Nothing subimageCmd transformU
    rw [ha]
    simp only [List.length_cons]
    rw [if_neg (by omega)]
    simp only [px, py, pw, ph]
    rw [loadVar_none io isMasterImage wd v (fun u hu => by
      have := hv u hu
      revert this
      generalize u.ty = t
      cases t <;> simp [isMasterImage])]
    rfl

/-- Whatever the arguments, the command changes at most the variable, or the file, named by its second
argument, and nothing at all unless it returns. -/
theorem C127_frame (io : FileIO Pay F) (ext : Val Pay → Act (Val Pay)) (order : List Nat)
    (wd : World Pay F) (args : List Str) (out : Out Pay F)
    (h : subimageCmd io ext order wd args = .ok out) :
    out.world = wd ∨ ∃ o, (plainWords args)[1]? = some o ∧
      ((∃ d, o = '$' :: d ∧ OnlyVar wd out.world d) ∨ (isVar o = false ∧ OnlyFile io wd out.world o)) := by
  simp only [← argsFilter_eq] at *
  have triv : ∀ c, (Res.ok ⟨wd, c, none⟩ : Res (Out Pay F)) = .ok out → out.world = wd := by
    intro c h; injection h with h; subst h; rfl
  unfold subimageCmd transformU at h
  simp only [quiet, raise] at h
  split at h
  · exact .inl (triv _ h)
  · split at h
    · rename_i inArg o rest hf
      split at h
      · exact .inl (triv _ h)
      · split at h
        · exact .inl (triv _ h)
        · exact .inl (triv _ h)
        · split at h
          · cases h
          · exact .inl (triv _ h)
          · exact .inl (triv _ h)
          · split at h
            · injection h with h
              subst h
              exact .inr ⟨o, by rw [hf]; rfl, saveArg_frame io wd o _⟩
            · exact .inl (triv _ h)
    · cases h

/-! ## C128 -/

/-- `info`, `print` and `vars` change nothing. -/
theorem C128_readonly {P : Type} (io : FileIO P F) (iop : FileIO Pay F) (ext : Val Pay → Nat × Nat)
    (wd : World P F) (wp : World Pay F) (args : List Str) :
    (∀ t, infoCmd iop ext wp args = .ok t → t.world = wp) ∧ (printCmd io wd args).world = wd ∧
    (varsCmd wd).world = wd := by
  refine ⟨?_, ?_, rfl⟩
  · intro t h
    unfold infoCmd at h
    split at h
    · injection h with h; subst h; rfl
    · split at h
      · injection h with h; subst h; rfl
      · injection h with h; subst h; rfl
      · rename_i v _
        cases hs : imgSize ext v with
        | ok s => rw [hs, Res.ok_bind] at h; injection h with h; subst h; rfl
        | throw e => rw [hs] at h; cases h
        | ub => rw [hs] at h; cases h
  · unfold printCmd
    split
    · rfl
    · split
      · rfl
      · rfl
      · split
        · split <;> rfl
        · rfl

/-- `info $v` prints the width and height of the stored image. -/
theorem C128_info (io : FileIO Pay F) (ext : Val Pay → Nat × Nat) (wd : World Pay F) (v : Str)
    (more : List Str) (w h : Nat) :
    (∀ (n : Num) (im : Image ℚ) f, im.Shows w h f →
      wd.ws.retrieveAny v = some (.atom (.image (.num n)) (.image im)) →
      infoCmd io ext wd (('$' :: v) :: more) = .ok ⟨wd, .returned, some (.sizes w h)⟩) ∧
    (∀ (n : Nat) (im : Image (Px3 ℚ)) f, im.Shows w h f →
      wd.ws.retrieveAny v = some (.atom (.image (.scalar n)) (.image3 im)) →
      infoCmd io ext wd (('$' :: v) :: more) = .ok ⟨wd, .returned, some (.sizes w h)⟩) := by
  constructor
  · intro n im f s hv
    rw [infoCmd, loadVar io isMasterImage wd v _ hv rfl]
    simp only [imgSize]
    rw [if_neg (by rw [s.size]; simp), s.width, s.height]
    rfl
  · intro n im f s hv
    rw [infoCmd, loadVar io isMasterImage wd v _ hv rfl]
    simp only [imgSize]
    rw [if_neg (by rw [s.size]; simp), s.width, s.height]
    rfl

/-- `print $v` shows the stored value, for numbers, pixels, images and containers of numbers; for a
variable that does not exist it shows nothing. Full statement: for every stored value; see the
violation. -/
theorem C128_print_partial {P : Type} (io : FileIO P F) (wd : World P F) (v : Str) (more : List Str) :
    (∀ u, wd.ws.retrieveAny v = some u →
      ((∃ n, u.ty = .num n) ∨ (∃ n, u.ty = .scalar n) ∨ (∃ n, u.ty = .image (.num n)) ∨
        (∃ n, u.ty = .image (.scalar n)) ∨ ∃ k n, u.ty = .cont k (.num n)) →
      printCmd io wd (('$' :: v) :: more) = ⟨wd, .returned, some (.value u)⟩) ∧
    (wd.ws.retrieveAny v = none → printCmd io wd (('$' :: v) :: more) = ⟨wd, .returned, none⟩) := by
  constructor
  · intro u hu ht
    unfold printCmd
    dsimp only
    by_cases hm : isMasterImage u.ty = true
    · rw [loadVar io isMasterImage wd v u hu hm]
    · rw [loadVar_none io isMasterImage wd v (fun z hz => by
        rw [hu] at hz; injection hz with hz; subst hz; simpa using hm)]
      simp only [varName, List.drop_succ_cons, List.drop_zero, hu]
      rw [if_pos]
      rcases ht with ⟨n, e⟩ | ⟨n, e⟩ | ⟨n, e⟩ | ⟨n, e⟩ | ⟨k, n, e⟩ <;>
        simp [e, isMasterImage, isMasterScalar] at hm ⊢
  · intro hu
    unfold printCmd
    dsimp only
    rw [loadVar_none io isMasterImage wd v (fun z hz => by rw [hu] at hz; cases hz)]
    simp only [varName, List.drop_succ_cons, List.drop_zero, hu]

/-- A container of images, such as the octave stored by `sift_generate_octave`, is reported as not found
or unsupported. -/
theorem C128_print_violation {P : Type} (io : FileIO P F) (wd : World P F) (v : Str) (k : Kind) (t : Ty)
    (items : List (Val P)) (hv : wd.ws.retrieveAny v = some (.cont k (.image t) items)) :
    printCmd io wd [('$' :: v)] = ⟨wd, .returned, none⟩ := by
  unfold printCmd
  dsimp only
  rw [loadVar_none io isMasterImage wd v (fun z hz => by
    rw [hv] at hz; injection hz with hz; subst hz; rfl)]
  simp only [varName, List.drop_succ_cons, List.drop_zero, hv]
  rfl

theorem runWs_nodup {V : Type} (ops : List (WsOp V)) :
    ∀ w : Workspace V, (w.store.map Prod.fst).Nodup → (∀ p ∈ w.store, sanitize p.1 = p.1) →
      ((runWs w ops).store.map Prod.fst).Nodup ∧ ∀ p ∈ (runWs w ops).store, sanitize p.1 = p.1 := by
  have er : ∀ (w : Workspace V) k, (w.store.map Prod.fst).Nodup → ((w.erase k).store.map Prod.fst).Nodup :=
    fun w k h => h.sublist (List.filter_sublist.map _)
  have ers : ∀ (w : Workspace V) k, (∀ p ∈ w.store, sanitize p.1 = p.1) →
      ∀ p ∈ (w.erase k).store, sanitize p.1 = p.1 :=
    fun w k h p hp => h p (List.mem_of_mem_filter hp)
  have ass : ∀ (w : Workspace V) k v, (∀ p ∈ w.store, sanitize p.1 = p.1) →
      ∀ p ∈ (w.assign (sanitize k) v).store, sanitize p.1 = p.1 := by
    intro w k v h p hp
    rcases List.mem_cons.mp hp with rfl | hp
    · exact sanitize_idem k
    · exact ers w _ h p hp
  induction ops with
  | nil => intro w h1 h2; exact ⟨h1, h2⟩
  | cons op ops ih =>
    intro w h1 h2
    cases op with
    | store n v => exact ih _ (assign_nodup _ _ _ h1) (ass _ _ _ h2)
    | remove n =>
      refine ih _ ?_ ?_
      · unfold Workspace.remove
        split
        · exact er _ _ h1
        · exact h1
      · unfold Workspace.remove
        split
        · exact ers _ _ h2
        · exact h2
    | rename a b =>
      refine ih _ ?_ ?_
      · unfold Workspace.rename
        split
        · exact er _ _ (assign_nodup _ _ _ h1)
        · exact h1
      · unfold Workspace.rename
        split
        · exact ers _ _ (ass _ _ _ h2)
        · exact h2
    | clear => exact ih _ (by simp [Workspace.clear]) (by simp [Workspace.clear])

/-- After any history of stores, removals, renames and clears, `vars` lists every variable exactly once,
with its value, in alphabetical order, and nothing else. -/
theorem C128_vars {P : Type} (ops : List (WsOp (Val P))) (fs : F) :
    let wd : World P F := ⟨runWs ⟨[]⟩ ops, fs⟩
    ∃ entries, varsCmd wd = ⟨wd, .returned, some (.listing entries)⟩ ∧
      (entries.map Prod.fst).Pairwise (· < ·) ∧
      ∀ s n v, Means s n → ((n, v) ∈ entries ↔ wd.ws.retrieveAny s = some v) := by
  intro wd
  obtain ⟨hn, hs⟩ := runWs_nodup ops (⟨[]⟩ : Workspace (Val P)) (by simp) (by simp)
  refine ⟨_, rfl, ?_, ?_⟩
  · have hp : (List.mergeSort wd.ws.store keyLe).Perm wd.ws.store := List.mergeSort_perm _ _
    have h1 : (List.mergeSort wd.ws.store keyLe).Pairwise (fun a b => keyLe a b = true) :=
      List.pairwise_mergeSort (fun a b c => by
        simp only [keyLe, decide_eq_true_eq]; exact List.le_trans) (fun a b => by
        simp only [keyLe, Bool.or_eq_true, decide_eq_true_eq]; exact List.le_total _ _) _
    have h2 : ((List.mergeSort wd.ws.store keyLe).map Prod.fst).Nodup :=
      (hp.map Prod.fst).nodup_iff.mpr hn
    rw [List.pairwise_map]
    have h3 := List.pairwise_map.mp h2
    refine (h1.and h3).imp fun {a b} h => ?_
    have hle : a.1 ≤ b.1 := by simpa [keyLe] using h.1
    by_contra hlt
    exact h.2 (List.le_antisymm hle (List.not_lt.mp hlt))
  · intro s n v hm
    rw [List.mem_mergeSort, ← find_some_iff _ hn, ← means_iff.1 hm]
    rfl

/-- `write $v file` hands the stored image to the file writer under the sanitised name and leaves all
variables as they are; when the writer fails the command fails and nothing changes. `write $v $d` copies
the image. A variable that does not exist or holds no image, or a first argument that is no variable:
nothing happens. -/
theorem C128_write {P : Type} (io : FileIO P F) (wd : World P F) (v o : Str) (more : List Str) :
    (∀ u, wd.ws.retrieveAny v = some u → ImageTy u.ty →
      (isVar o = false → ∀ n, Means o n →
        writeCmd io wd (('$' :: v) :: o :: more) =
          match io.save wd.fs n u with
          | some fs => (⟨wd.ws, fs⟩, .returned)
          | none => (wd, .threw)) ∧
      ∀ d, o = '$' :: d → ∃ wd', writeCmd io wd (('$' :: v) :: o :: more) = (wd', .returned) ∧
        wd'.ws.retrieveAny d = some u ∧ OnlyVar wd wd' d) ∧
    ((∀ u, wd.ws.retrieveAny v = some u → ¬ ImageTy u.ty) →
      writeCmd io wd (('$' :: v) :: o :: more) = (wd, .returned)) ∧
    (∀ a, isVar a = false → writeCmd io wd (a :: o :: more) = (wd, .returned)) ∧
    (∀ args : List Str, args.length < 2 → writeCmd io wd args = (wd, .returned)) := by
  refine ⟨?_, ?_, ?_, ?_⟩
  · intro u hu ht
    have e : writeCmd io wd (('$' :: v) :: o :: more) = saveArg io wd o u := by
      rw [writeCmd, if_pos (by rfl), loadVar io isMasterImage wd v u hu (imageTy_iff.1 ht)]
    constructor
    · intro ho n hn
      rw [e, saveArg, ho, means_iff.1 hn]
      cases io.save wd.fs n u <;> rfl
    · rintro d rfl
      refine ⟨_, e.trans (by simp only [saveArg, isVar, List.head?_cons, beq_self_eq_true, if_true]; rfl), ?_,
        onlyVar_put _ _ _⟩
      simp [Workspace.retrieveAny_put, varName]
  · intro h
    rw [writeCmd, if_pos (by rfl), loadVar_none io isMasterImage wd v fun u hu => not_imageTy (h u hu)]
  · intro a ha
    rw [writeCmd, if_neg (by simp [ha])]
  · intro args h
    match args, h with
    | [], _ => rfl
    | [_], _ => rfl
    | _ :: _ :: _, h => simp only [List.length_cons] at h; omega

/-! ## C129 -/

theorem prod_pos' : ∀ ns : List Nat, (∀ n ∈ ns, 0 < n) → 0 < ns.prod := by
  intro ns
  induction ns with
  | nil => intro _; simp
  | cons n ns ih =>
    intro h
    rw [List.prod_cons]
    exact Nat.mul_pos (h n (by simp)) (ih fun m hm => h m (by simp [hm]))

theorem parseSizes_toDigits : ∀ ns : List Nat, (∀ n ∈ ns, n < 2 ^ 64) →
    parseSizes (ns.map (Nat.toDigits 10)) = some ns := by
  intro ns
  induction ns with
  | nil => intro _; rfl
  | cons n ns ih =>
    intro h
    have pn : parseSize (Nat.toDigits 10 n) = some n := parseSize_toStr (h n (by simp))
    have := ih fun m hm => h m (by simp [hm])
    simp [parseSizes, pn, this]

/-- `rand name $d n1 n2 …` with a known generator stores an image of the requested sizes whose values are
the generator's first draws, in row-major order; nothing else changes. Full statement: for all sizes;
see `C129_rand_violation`. -/
theorem C129_rand_partial {σ : Type} (io : FileIO Pay F) (gen : Str → σ → ℚ × σ) (seed : σ)
    (wd : World Pay F) (name d : Str) (ns : List Nat) (hne : ns ≠ []) (hpos : ∀ n ∈ ns, 0 < n)
    (hp : ns.prod < 2 ^ 31)
    (hname : name ∈ ["knuth_b".toList, "minstd_rand".toList, "minstd_rand0".toList, "mt19937".toList,
      "mt19937_64".toList, "ranlux24".toList, "ranlux24_base".toList, "ranlux48".toList,
      "ranlux48_base".toList]) :
    ∃ im wd', randCmd io gen seed wd (name :: ('$' :: d) :: ns.map (Nat.toDigits 10)) = (wd', .returned) ∧
      wd'.ws.retrieveAny d = some (.atom (.image (.num .double)) (.image im)) ∧ OnlyVar wd wd' d ∧
      im.WF ∧ im.size = ns ∧
      ∀ idx, InBounds ns idx → im.at' idx = .ok (call (gen name) seed (rowMajor ns idx)) := by
  obtain ⟨im, e, wf, hs, hat, -⟩ := C121_generate_partial (gen name) ns seed hpos hp
  have hlt : ∀ n ∈ ns, n < 2 ^ 64 := by
    intro n hn
    have : n ∣ ns.prod := List.dvd_prod hn
    have hpp : 0 < ns.prod := prod_pos' ns hpos
    have := Nat.le_of_dvd hpp this
    omega
  obtain ⟨n, ns', rfl⟩ := List.exists_cons_of_ne_nil hne
  refine ⟨im, { wd with ws := wd.ws.put d (.atom tyDouble (.image im)) }, ?_,
    by rw [Workspace.retrieveAny_put]; simp [tyDouble], onlyVar_put _ _ _, wf, hs, hat⟩
  have hps := parseSizes_toDigits (n :: ns') hlt
  rw [List.map_cons] at hps ⊢
  rw [randCmd, hps]
  dsimp only
  rw [if_pos (show name ∈ urbgNames from hname), e]
  simp [saveArg, isVar, varName]

example (io : FileIO Pay Unit) := C129_rand_partial io (fun _ (n : Nat) => ((n : ℚ) / 7, n + 1)) 3 ⟨⟨[]⟩, ()⟩
  "mt19937".toList ['d'] [4, 5] (by decide) (by decide) (by decide) (by decide +kernel)

/-- An unknown generator name, or too few arguments: nothing happens. A size that is no number: the command
fails. -/
theorem C129_rejected {σ : Type} (io : FileIO Pay F) (gen : Str → σ → ℚ × σ) (seed : σ)
    (wd : World Pay F) :
    (∀ args : List Str, args.length < 3 → randCmd io gen seed wd args = (wd, .returned)) ∧
    (∀ (name o : Str) (ns : List Nat), ns ≠ [] → (∀ n ∈ ns, n < 2 ^ 64) → name ∉ urbgNames →
      randCmd io gen seed wd (name :: o :: ns.map (Nat.toDigits 10)) = (wd, .returned)) ∧
    (∀ (name o : Str) (pre : List Str) (t : Str) (post : List Str), (∀ c ∈ t, ¬ c.isDigit) →
      randCmd io gen seed wd (name :: o :: pre ++ t :: post) = (wd, .threw)) := by
  refine ⟨?_, ?_, ?_⟩
  · intro args h
    match args, h with
    | [], _ => rfl
    | [_], _ => rfl
    | [_, _], _ => rfl
    | _ :: _ :: _ :: _, h => simp only [List.length_cons] at h; omega
  · intro name o ns hne hlt hn
    obtain ⟨n, ns', rfl⟩ := List.exists_cons_of_ne_nil hne
    have hps := parseSizes_toDigits (n :: ns') hlt
    rw [List.map_cons] at hps ⊢
    rw [randCmd, hps]
    simp only
    rw [if_neg hn]
  · intro name o pre t post ht
    have hn := parseSize_nodigit ht
    have hps : parseSizes (pre ++ t :: post) = none := by
      induction pre with
      | nil => simp [parseSizes, hn]
      | cons a pre ih =>
        rw [List.cons_append, parseSizes, ih]
        cases parseSize a <;> rfl
    obtain ⟨a, l, hl⟩ : ∃ a l, pre ++ t :: post = a :: l :=
      List.exists_cons_of_ne_nil (by simp)
    rw [hl] at hps
    rw [List.cons_append, List.cons_append, hl, randCmd, hps]

/-- Sizes whose product does not fit an `int`: the command fails although the image could be made. -/
theorem C129_rand_violation {σ : Type} (io : FileIO Pay F) (gen : Str → σ → ℚ × σ) (seed : σ)
    (wd : World Pay F) (o : Str) :
    randCmd io gen seed wd ["mt19937".toList, o, Nat.toDigits 10 65536, Nat.toDigits 10 65536] =
      (wd, .threw) := by
  have hps := parseSizes_toDigits [65536, 65536] (by decide)
  rw [randCmd]
  simp only [List.map_cons, List.map_nil] at hps
  rw [hps]
  simp only
  rw [if_pos (by decide +kernel), (C121_generate_violation _ _).1]

example : (∀ n ∈ [4, 5], 0 < n) ∧ [4, 5].prod < 2 ^ 31 ∧ "ranlux24".toList ∈ urbgNames ∧
    "mt".toList ∉ urbgNames := by decide +kernel

/-- A workspace with a picture of two pixels. -/
def wTwo : World Pay Unit := ⟨⟨[(['v'], .atom (.image (.num .double)) (.image (picture 2 1 fun x _ => (x : ℚ))))]⟩, ()⟩

-- A window outside the picture: the command fails, and nothing changes.
example (io : FileIO Pay Unit) (ext : Val Pay → Act (Val Pay)) : ∃ out, subimageCmd io ext [0] wTwo
      ["par".toList, "$v".toList, "$d".toList, "1".toList, "0".toList, "2".toList, "1".toList] = .ok out ∧
    (out.world = wTwo ∨ ∃ o,
      (plainWords ["par".toList, "$v".toList, "$d".toList, "1".toList, "0".toList, "2".toList, "1".toList])[1]? = some o ∧
      ((∃ d, o = '$' :: d ∧ OnlyVar wTwo out.world d) ∨ (isVar o = false ∧ OnlyFile io wTwo out.world o))) := by
  have e := (C127_outside_partial io ext [0] wTwo
    ["par".toList, "$v".toList, "$d".toList, "1".toList, "0".toList, "2".toList, "1".toList] ['v'] ['$', 'd'] 1 0 2 1 []
    (by decide +kernel) (by decide) (by decide) 2 1 (.inl (by decide))).1 .double _ _ (picture_shows 2 1 _) rfl
  exact ⟨_, e, C127_frame io ext _ _ _ _ e⟩

end TinyDIP.Props
