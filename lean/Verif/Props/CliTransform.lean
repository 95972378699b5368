import Verif.Lemmas.Samples
import Verif.Model.CliTransform
import Verif.Spec.CliTransform
import Verif.Props.CliImage
import Verif.Props.Resample
import Verif.Props.Transform
import Verif.Props.Color
import Verif.Props.Arith
import Verif.Props.Pixelwise

/-!
# Properties C138, C139, C140: the commands dct2, idct2, bicubic_resize, lanczos_resample, im2double,
im2uint8, hsv2rgb and getRplane, getGplane, getBplane
-/

namespace TinyDIP.Props

open TinyDIP.Cli TinyDIP.Arith TinyDIP.Resample TinyDIP.Color

variable {F P : Type}

/-! ## Steps of a command -/

theorem transformU_step (io : FileIO P F) (minArgs : Nat) (check : Ty → Bool)
    (setup : List Str → Str → Option (Val P → Act (Val P))) (wd : World P F) (args : List Str)
    (v d : Str) (more : List Str) (u r : Val P) (core : Val P → Act (Val P))
    (ha : argsFilter args = ('$' :: v) :: ('$' :: d) :: more) (hm : minArgs ≤ more.length + 2)
    (hs : setup (argsFilter args) (extractPolicy args) = some core)
    (hv : wd.ws.retrieveAny v = some u) (ht : check u.ty = true) (hc : core u = .done r)
    (hr : check r.ty = true) : Stored wd (transformU io minArgs check setup wd args) d r := by
  apply stored_put
  unfold transformU
  rw [ha] at hs ⊢
  simp only [List.length_cons]
  rw [if_neg (by omega)]
  simp only [hs, loadVar io check wd v u hv ht, hc, hr, if_true]
  simp [saveArg, isVar, varName]

theorem transformU_threw (io : FileIO P F) (minArgs : Nat) (check : Ty → Bool)
    (setup : List Str → Str → Option (Val P → Act (Val P))) (wd : World P F) (args : List Str)
    (v o : Str) (more : List Str) (u : Val P) (core : Val P → Act (Val P))
    (ha : argsFilter args = ('$' :: v) :: o :: more) (hm : minArgs ≤ more.length + 2)
    (hs : setup (argsFilter args) (extractPolicy args) = some core)
    (hv : wd.ws.retrieveAny v = some u) (ht : check u.ty = true) (hc : core u = .threw) :
    Failed wd (transformU io minArgs check setup wd args) := by
  unfold Failed transformU
  rw [ha] at hs ⊢
  simp only [List.length_cons]
  rw [if_neg (by omega)]
  simp only [hs, loadVar io check wd v u hv ht, hc]
  rfl

theorem transformU_frame (io : FileIO P F) (minArgs : Nat) (check : Ty → Bool)
    (setup : List Str → Str → Option (Val P → Act (Val P))) (wd : World P F) (args : List Str)
    (out : Out P F) (h : transformU io minArgs check setup wd args = .ok out) :
    out.world = wd ∨ ∃ o, (argsFilter args)[1]? = some o ∧
      ((∃ d, o = '$' :: d ∧ OnlyVar wd out.world d) ∨ (isVar o = false ∧ OnlyFile io wd out.world o)) := by
  have triv : ∀ c, (Res.ok ⟨wd, c, none⟩ : Res (Out P F)) = .ok out → out.world = wd := by
    intro c h; injection h with h; subst h; rfl
  unfold transformU at h
  simp only [quiet, raise] at h
  split at h
  · exact .inl (triv _ h)
  · split at h
    · rename_i inArg o rest hf
      split at h
      · exact .inl (triv _ h)
      · split at h
        · exact .inl (triv _ h)
        · exact .inl (triv _ h)
        · split at h
          · cases h
          · exact .inl (triv _ h)
          · exact .inl (triv _ h)
          · split at h
            · injection h with h
              subst h
              exact .inr ⟨o, by rw [hf]; rfl, saveArg_frame io wd o _⟩
            · exact .inl (triv _ h)
    · cases h

theorem dispatchPolicy_same {β : Type} (s : Str) (b : β) : dispatchPolicy s (fun _ => b) b = b := by
  unfold dispatchPolicy; split_ifs <;> rfl

theorem planar_of_shows {α : Type} {im : Image α} {w h : Nat} {f : Nat → Nat → α} (s : im.Shows w h f)
    (hw : 0 < w) (hh : 0 < h) : planar im = true := by
  simp [planar, s.size, hw.ne', hh.ne']

theorem prod_of_shows {α : Type} {im : Image α} {w h : Nat} {f : Nat → Nat → α} (s : im.Shows w h f)
    (hw : 0 < w) (hh : 0 < h) : 0 < im.size.prod := by
  rw [s.size]; simpa using ⟨hw, hh⟩

/-- Every function is the picture of some image of that size. -/
theorem exists_shows {α : Type} {w h : Nat} (hw : w < 2 ^ 64) (hh : h < 2 ^ 64) (hf : w * h < 2 ^ 64)
    (g : Nat → Nat → α) (z : α) : ∃ im : Image α, im.Shows w h g := by
  obtain ⟨out, -, so⟩ := loop_fill (id : Nat × Nat → Nat × Nat) g
    (fun (out : Image α) (p : Nat × Nat) => out.set2 p.1 p.2 (g p.1 p.2)) (iterYX w h)
    (by
      rintro ⟨x, y⟩ hb o q sq
      have hb := mem_iterYX.mp hb
      exact sq.set2 hb.1 hb.2 _)
    (by
      intro x y hx hy
      exact ⟨(x, y), mem_iterYX.mpr ⟨hx, hy⟩, rfl⟩) _ _ (ofSizes_shows z hw hh hf)
  exact ⟨out, so⟩

/-- The planes of a colour image are treated one by one and put together. -/
theorem applyEach_planes {C D : Type} (zero : C) (zero' : D) (op : Image C → Res (Image D))
    {im : Image (Px3 C)} {w h nw nh : Nat} {f : Nat → Nat → Px3 C} (s : im.Shows w h f) (hw : 0 < w)
    (hh : 0 < h) (hnw : 0 < nw) (hnh : 0 < nh) {a b c : Image D} {ga gb gc : Nat → Nat → D}
    (ea : op ⟨im.size, im.data.map Px3.c0⟩ = .ok a) (eb : op ⟨im.size, im.data.map Px3.c1⟩ = .ok b)
    (ec : op ⟨im.size, im.data.map Px3.c2⟩ = .ok c) (sa : a.Shows nw nh ga) (sb : b.Shows nw nh gb)
    (sc : c.Shows nw nh gc) :
    ∃ out, applyEach zero zero' op im = .ok out ∧ out.Shows nw nh (fun x y => ⟨ga x y, gb x y, gc x y⟩) ∧
      (⟨out.size, out.data.map Px3.c0⟩ : Image D) = a ∧ (⟨out.size, out.data.map Px3.c1⟩ : Image D) = b ∧
      (⟨out.size, out.data.map Px3.c2⟩ : Image D) = c := by
  obtain ⟨out, so⟩ := exists_shows sa.w_lt sa.h_lt sa.fits
    (fun x y => (⟨ga x y, gb x y, gc x y⟩ : Px3 D)) ⟨zero', zero', zero'⟩
  have e0 : (⟨out.size, out.data.map Px3.c0⟩ : Image D) = a :=
    (map_shows so Px3.c0).ext sa fun _ _ _ _ => rfl
  have e1 : (⟨out.size, out.data.map Px3.c1⟩ : Image D) = b :=
    (map_shows so Px3.c1).ext sb fun _ _ _ _ => rfl
  have e2 : (⟨out.size, out.data.map Px3.c2⟩ : Image D) = c :=
    (map_shows so Px3.c2).ext sc fun _ _ _ _ => rfl
  refine ⟨out, ?_, so, e0, e1, e2⟩
  rw [applyEach_ok zero zero' op im s.wf (prod_of_shows s hw hh), ea, Res.ok_bind, eb, Res.ok_bind, ec,
    Res.ok_bind, ← e0, ← e1, ← e2]
  have ho := prod_of_shows so hnw hnh
  exact constructPx3Ord_ok zero' out.size out.data so.wf.len so.wf.fits ho _ (by
    rw [Image.count, prodW_of_lt so.wf.fits, so.wf.len])

theorem gives_of {io : FileIO P F} {minArgs : Nat} {check : Ty → Bool}
    {setup : List Str → Str → Option (Val P → Act (Val P))} {params : List Str} {x y : Val P}
    (hm : minArgs ≤ params.length + 2)
    (hs : ∀ a b policy, ∃ core, setup (a :: b :: params) policy = some core ∧ core x = .done y)
    (hx : check x.ty = true) (hy : check y.ty = true) :
    Gives (transformU io minArgs check setup) params x y := by
  intro wd args v e ha hv
  rw [← argsFilter_eq] at ha
  obtain ⟨core, h1, h2⟩ := hs ('$' :: v) ('$' :: e) (extractPolicy args)
  exact transformU_step io minArgs check setup wd args v e params x y core ha hm (by rw [ha]; exact h1) hv hx
    h2 hy

theorem refuses_of {io : FileIO P F} {minArgs : Nat} {check : Ty → Bool}
    {setup : List Str → Str → Option (Val P → Act (Val P))} {params : List Str} {x : Val P}
    (hm : minArgs ≤ params.length + 2)
    (hs : ∀ a b policy, ∃ core, setup (a :: b :: params) policy = some core ∧ core x = .threw)
    (hx : check x.ty = true) :
    Refuses (transformU io minArgs check setup) params x := by
  intro wd args v o ha hv
  rw [← argsFilter_eq] at ha
  obtain ⟨core, h1, h2⟩ := hs ('$' :: v) o (extractPolicy args)
  exact transformU_threw io minArgs check setup wd args v o params x core ha hm (by rw [ha]; exact h1) hv hx h2

/-! ## C138 -/

theorem dct2_shows {im : Image ℝ} {w h : Nat} {f : Nat → Nat → ℝ} (s : im.Shows w h f) (hw : 0 < w)
    (hh : 0 < h) : ∃ F, dct2 im = .ok F ∧ F.Shows w h (dctVal w h 1 (fun _ => f) 0) ∧ idct2 F = .ok im := by
  obtain ⟨F, e1, s1⟩ := dct3OnePlane_shows (stack_one s) (z := 0) (by simp)
  have e2 : dct2 im = .ok F := by rw [dct2, cast_id s hw hh, Res.ok_bind, e1]
  obtain ⟨F', e3, e4⟩ := C26_idct2_dct2 im w h f s hw hh
  rw [e2] at e3
  injection e3 with e3
  subst e3
  exact ⟨F, e2, s1, e4⟩

theorem idct2_shows {im : Image ℝ} {w h : Nat} {f : Nat → Nat → ℝ} (s : im.Shows w h f) (hw : 0 < w)
    (hh : 0 < h) : ∃ F, idct2 im = .ok F ∧ F.Shows w h (idctVal w h 1 (fun _ => f) 0) ∧ dct2 F = .ok im := by
  obtain ⟨F, e1, s1⟩ := idct3OnePlane_shows (stack_one s) (z := 0) (by simp)
  have e2 : idct2 im = .ok F := by rw [idct2, cast_id s hw hh, Res.ok_bind, e1]
  obtain ⟨F', e3, e4⟩ := C26_dct2_idct2 im w h f s hw hh
  rw [e2] at e3
  injection e3 with e3
  subst e3
  exact ⟨F, e2, s1, e4⟩

theorem cast_byte {α : Type} {im : Image α} {w h : Nat} {f : Nat → Nat → α} (s : im.Shows w h f) (hw : 0 < w)
    (hh : 0 < h) (c : α → ℝ) : im.cast c = .ok ⟨im.size, im.data.map c⟩ :=
  ofData_ok (by simpa using s.wf.len) s.wf.fits (prod_of_shows s hw hh)

theorem dct2Cmd_gives {io : FileIO PayR F} {ext : Val PayR → Act (Val PayR)} {x y : Val PayR} (more : List Str)
    (h : dctStored dct2 dct2Byte ext x = .done y) (hx : isMasterImage x.ty = true)
    (hy : isMasterImage y.ty = true) : Gives (dct2Cmd io ext) more x y :=
  gives_of (by omega) (fun _ _ _ => ⟨_, rfl, by rw [dispatchPolicy_same, h]⟩) hx hy

theorem idct2Cmd_gives {io : FileIO PayR F} {ext : Val PayR → Act (Val PayR)} {x y : Val PayR} (more : List Str)
    (h : dctStored idct2 idct2Byte ext x = .done y) (hx : isMasterImage x.ty = true)
    (hy : isMasterImage y.ty = true) : Gives (idct2Cmd io ext) more x y :=
  gives_of (by omega) (fun _ _ _ => ⟨_, rfl, by rw [dispatchPolicy_same, h]⟩) hx hy

/-- `dct2` stores the cosine transform of an image of numbers, and `idct2` of it gives the image back; the
same in the other order. -/
theorem C138_double (io : FileIO PayR F) (ext : Val PayR → Act (Val PayR)) (more : List Str) (w h : Nat)
    (hw : 0 < w) (hh : 0 < h) (im : Image ℝ) (f : Nat → Nat → ℝ) (s : im.Shows w h f) :
    (∃ mid, Gives (dct2Cmd io ext) more (.atom tyDouble (.real im)) (.atom tyDouble (.real mid)) ∧
      mid.Shows w h (dctVal w h 1 (fun _ => f) 0) ∧
      Gives (idct2Cmd io ext) more (.atom tyDouble (.real mid)) (.atom tyDouble (.real im))) ∧
    (∃ mid, Gives (idct2Cmd io ext) more (.atom tyDouble (.real im)) (.atom tyDouble (.real mid)) ∧
      mid.Shows w h (idctVal w h 1 (fun _ => f) 0) ∧
      Gives (dct2Cmd io ext) more (.atom tyDouble (.real mid)) (.atom tyDouble (.real im))) := by
  constructor
  · obtain ⟨F, e1, s1, e2⟩ := dct2_shows s hw hh
    exact ⟨F, dct2Cmd_gives more (by simp [dctStored, tyDouble, planar_of_shows s hw hh, e1, Act.ofImage]) rfl rfl, s1,
      idct2Cmd_gives more (by simp [dctStored, tyDouble, planar_of_shows s1 hw hh, e2, Act.ofImage]) rfl rfl⟩
  · obtain ⟨F, e1, s1, e2⟩ := idct2_shows s hw hh
    exact ⟨F, idct2Cmd_gives more (by simp [dctStored, tyDouble, planar_of_shows s hw hh, e1, Act.ofImage]) rfl rfl, s1,
      dct2Cmd_gives more (by simp [dctStored, tyDouble, planar_of_shows s1 hw hh, e2, Act.ofImage]) rfl rfl⟩

example (io : FileIO PayR F) (ext : Val PayR → Act (Val PayR)) := C138_double io ext [] 3 2 (by decide) (by decide)
  (picture 3 2 fun x y => (x : ℝ) - 2 * y) _ (picture_shows ..)

theorem applyEach_dct {im : Image (Px3 ℝ)} {w h : Nat} {f : Nat → Nat → Px3 ℝ} (s : im.Shows w h f)
    (hw : 0 < w) (hh : 0 < h) :
    ∃ mid, applyEach 0 0 dct2 im = .ok mid ∧ mid.Shows w h (fun x y =>
        ⟨dctVal w h 1 (fun _ x y => (f x y).c0) 0 x y, dctVal w h 1 (fun _ x y => (f x y).c1) 0 x y,
          dctVal w h 1 (fun _ x y => (f x y).c2) 0 x y⟩) ∧
      applyEach 0 0 idct2 mid = .ok im := by
  obtain ⟨A, a1, a2, a3⟩ := dct2_shows (map_shows s Px3.c0) hw hh
  obtain ⟨B, b1, b2, b3⟩ := dct2_shows (map_shows s Px3.c1) hw hh
  obtain ⟨C, c1, c2, c3⟩ := dct2_shows (map_shows s Px3.c2) hw hh
  obtain ⟨mid, e, sm, m0, m1, m2⟩ := applyEach_planes 0 0 dct2 s hw hh hw hh a1 b1 c1 a2 b2 c2
  obtain ⟨o, e', so, -, -, -⟩ := applyEach_planes 0 0 idct2 sm hw hh hw hh (m0.symm ▸ a3) (m1.symm ▸ b3)
    (m2.symm ▸ c3) (map_shows s Px3.c0) (map_shows s Px3.c1) (map_shows s Px3.c2)
  exact ⟨mid, e, sm, by rw [e', so.ext s fun _ _ _ _ => rfl]⟩

/-- The same for images of three floating-point channels (`RGB_DOUBLE` and `HSV`): each channel is
transformed, and `idct2` gives the image back. -/
theorem C138_three_channels (io : FileIO PayR F) (ext : Val PayR → Act (Val PayR)) (more : List Str)
    (w h : Nat) (hw : 0 < w) (hh : 0 < h) (im : Image (Px3 ℝ)) (f : Nat → Nat → Px3 ℝ) (s : im.Shows w h f)
    (t : Ty) (ht : t = tyRgbDouble ∨ t = tyHsv) :
    ∃ mid, Gives (dct2Cmd io ext) more (.atom t (.tri im)) (.atom t (.tri mid)) ∧
      mid.Shows w h (fun x y => ⟨dctVal w h 1 (fun _ x y => (f x y).c0) 0 x y,
        dctVal w h 1 (fun _ x y => (f x y).c1) 0 x y, dctVal w h 1 (fun _ x y => (f x y).c2) 0 x y⟩) ∧
      Gives (idct2Cmd io ext) more (.atom t (.tri mid)) (.atom t (.tri im)) := by
  obtain ⟨mid, e1, s1, e2⟩ := applyEach_dct s hw hh
  rcases ht with rfl | rfl
  · exact ⟨mid, dct2Cmd_gives more (by simp [dctStored, tyRgbDouble, planar_of_shows s hw hh, e1, Act.ofImage]) rfl rfl,
      s1, idct2Cmd_gives more (by simp [dctStored, tyRgbDouble, planar_of_shows s1 hw hh, e2, Act.ofImage]) rfl rfl⟩
  · exact ⟨mid, dct2Cmd_gives more (by simp [dctStored, tyHsv, planar_of_shows s hw hh, e1, Act.ofImage]) rfl rfl,
      s1, idct2Cmd_gives more (by simp [dctStored, tyHsv, planar_of_shows s1 hw hh, e2, Act.ofImage]) rfl rfl⟩

example (io : FileIO PayR F) (ext : Val PayR → Act (Val PayR)) := C138_three_channels io ext [] 3 2 (by decide)
  (by decide) (picture 3 2 fun x y => ⟨x, y, 7⟩) _ (picture_shows ..) tyHsv (.inr rfl)

/-- A colour pixel as floating-point numbers. -/
def asReal (p : RGB) : Px3 ℝ := ⟨p.c0.toNat, p.c1.toNat, p.c2.toNat⟩

theorem im2double_eq {im : Image RGB} {w h : Nat} {f : Nat → Nat → RGB} (s : im.Shows w h f) (hw : 0 < w)
    (hh : 0 < h) : im2double im = .ok ⟨im.size, im.data.map asReal⟩ :=
  convertAll_ok (fun p : RGB => (⟨real8 p.c0, real8 p.c1, real8 p.c2⟩ : Px3 ℝ)) s.wf (prod_of_shows s hw hh)
    fun v _ => rfl

theorem im2uint8_asReal {im : Image RGB} {w h : Nat} {f : Nat → Nat → RGB} (s : im.Shows w h f) (hw : 0 < w)
    (hh : 0 < h) : im2uint8 ⟨im.size, im.data.map asReal⟩ = .ok im := by
  have := C103_roundtrip_partial im s.wf (prod_of_shows s hw hh)
  rwa [im2double_eq s hw hh, Res.ok_bind] at this

theorem im2uint8Gray_real {im : Image (BitVec 8)} {w h : Nat} {f : Nat → Nat → BitVec 8} (s : im.Shows w h f)
    (hw : 0 < w) (hh : 0 < h) : im2uint8Gray ⟨im.size, im.data.map real8⟩ = .ok im := by
  have := C103_roundtrip_gray im s.wf (prod_of_shows s hw hh)
  rwa [im2doubleGray, cast_byte s hw hh, Res.ok_bind] at this

theorem im2doubleCmd_gives {io : FileIO PayR F} {ext : Val PayR → Act (Val PayR)} {x y : Val PayR}
    (more : List Str) (h : im2doubleVal ext x = .done y) (hx : isMasterData x.ty = true)
    (hy : isMasterData y.ty = true) : Gives (im2doubleCmd io ext) more x y :=
  gives_of (by omega) (fun _ _ _ => ⟨_, rfl, by rw [dispatchPolicy_same, h]⟩) hx hy

theorem im2uint8Cmd_gives {io : FileIO PayR F} {ext : Val PayR → Act (Val PayR)} {x y : Val PayR}
    (more : List Str) (h : im2uint8Val ext x = .done y) (hx : isMasterData x.ty = true)
    (hy : isMasterData y.ty = true) : Gives (im2uint8Cmd io ext) more x y :=
  gives_of (by omega) (fun _ _ _ => ⟨_, rfl, by rw [dispatchPolicy_same, h]⟩) hx hy

/-- On an 8-bit image `dct2`, `idct2` and `im2uint8` one after the other give the image back. -/
theorem C138_byte (io : FileIO PayR F) (ext : Val PayR → Act (Val PayR)) (more : List Str) (w h : Nat)
    (hw : 0 < w) (hh : 0 < h) (im : Image (BitVec 8)) (f : Nat → Nat → BitVec 8) (s : im.Shows w h f) :
    ∃ mid back, Gives (dct2Cmd io ext) more (.atom tyByte (.bytes im)) (.atom tyDouble (.real mid)) ∧
      mid.Shows w h (dctVal w h 1 (fun _ x y => (f x y).toNat) 0) ∧
      Gives (idct2Cmd io ext) more (.atom tyDouble (.real mid)) (.atom tyDouble (.real back)) ∧
      back.Shows w h (fun x y => (f x y).toNat) ∧
      Gives (im2uint8Cmd io ext) more (.atom tyDouble (.real back)) (.atom tyByte (.bytes im)) := by
  have sr := map_shows s real8
  obtain ⟨F, e1, s1, e2⟩ := dct2_shows sr hw hh
  refine ⟨F, _, dct2Cmd_gives more ?_ rfl rfl, s1, idct2Cmd_gives more ?_ rfl rfl, sr,
    im2uint8Cmd_gives more ?_ rfl rfl⟩
  · simp [dctStored, tyByte, planar_of_shows s hw hh, dct2Byte, cast_byte s hw hh, e1, Act.ofImage]
  · simp [dctStored, tyDouble, planar_of_shows s1 hw hh, e2, Act.ofImage]
  · simp [im2uint8Val, tyDouble, im2uint8Gray_real s hw hh, Act.ofImage]

example (io : FileIO PayR F) (ext : Val PayR → Act (Val PayR)) := C138_byte io ext [] 3 2 (by decide) (by decide)
  (picture 3 2 fun x y => BitVec.ofNat 8 (50 * x + y)) _ (picture_shows ..)

/-- On a colour image `dct2`, `idct2` and `im2uint8` one after the other give the image back. -/
theorem C138_rgb (io : FileIO PayR F) (ext : Val PayR → Act (Val PayR)) (more : List Str) (w h : Nat)
    (hw : 0 < w) (hh : 0 < h) (im : Image RGB) (f : Nat → Nat → RGB) (s : im.Shows w h f) :
    ∃ mid back, Gives (dct2Cmd io ext) more (.atom tyRgb (.rgb im)) (.atom tyRgbDouble (.tri mid)) ∧
      mid.Shows w h (fun x y => ⟨dctVal w h 1 (fun _ x y => ((f x y).c0.toNat : ℝ)) 0 x y,
        dctVal w h 1 (fun _ x y => ((f x y).c1.toNat : ℝ)) 0 x y,
        dctVal w h 1 (fun _ x y => ((f x y).c2.toNat : ℝ)) 0 x y⟩) ∧
      Gives (idct2Cmd io ext) more (.atom tyRgbDouble (.tri mid)) (.atom tyRgbDouble (.tri back)) ∧
      back.Shows w h (fun x y => ⟨(f x y).c0.toNat, (f x y).c1.toNat, (f x y).c2.toNat⟩) ∧
      Gives (im2uint8Cmd io ext) more (.atom tyRgbDouble (.tri back)) (.atom tyRgb (.rgb im)) := by
  have sr := map_shows s asReal
  obtain ⟨mid, e1, s1, e2⟩ := applyEach_dct sr hw hh
  have hb : applyEach 0 0 dct2Byte im = .ok mid := by
    rw [← e1, applyEach_ok 0 0 _ im s.wf (prod_of_shows s hw hh),
      applyEach_ok 0 0 _ _ sr.wf (prod_of_shows sr hw hh)]
    simp only [dct2Byte, cast_byte (map_shows s Px3.c0) hw hh, cast_byte (map_shows s Px3.c1) hw hh,
      cast_byte (map_shows s Px3.c2) hw hh, Res.ok_bind, List.map_map]
    rfl
  refine ⟨mid, _, dct2Cmd_gives more ?_ rfl rfl, s1, idct2Cmd_gives more ?_ rfl rfl, sr,
    im2uint8Cmd_gives more ?_ rfl rfl⟩
  · rw [show dctStored dct2 dct2Byte ext (.atom tyRgb (.rgb im)) = if planar im then _ else _ from rfl]
    rw [if_pos (planar_of_shows s hw hh), hb]
    rfl
  · simp [dctStored, tyRgbDouble, planar_of_shows s1 hw hh, e2, Act.ofImage]
  · simp [im2uint8Val, tyRgbDouble, im2uint8_asReal s hw hh, Act.ofImage]

example (io : FileIO PayR F) (ext : Val PayR → Act (Val PayR)) := C138_rgb io ext [] 3 2 (by decide) (by decide)
  (picture 3 2 fun x y => ⟨BitVec.ofNat 8 (50 * x + y), BitVec.ofNat 8 y, 255⟩) _ (picture_shows ..)

/-- The commands of this file. -/
def isTransformCmd (io : FileIO PayR F) (ext : Val PayR → Act (Val PayR)) (order : List Nat)
    (cmd : World PayR F → List Str → Res (Out PayR F)) : Prop :=
  cmd = dct2Cmd io ext ∨ cmd = idct2Cmd io ext ∨ cmd = bicubicCmd io ext ∨ cmd = lanczosCmd io ext order ∨
  cmd = im2doubleCmd io ext ∨ cmd = im2uint8Cmd io ext ∨ cmd = hsv2rgbCmd io ext ∨ ∃ k, cmd = planeCmd k io ext

/-- Whatever the arguments, each of the commands changes at most the variable, or the file, named by its
second argument, and nothing at all unless it returns. -/
theorem C138_frame (io : FileIO PayR F) (ext : Val PayR → Act (Val PayR)) (order : List Nat)
    (cmd : World PayR F → List Str → Res (Out PayR F)) (hc : isTransformCmd io ext order cmd)
    (wd : World PayR F) (args : List Str) (out : Out PayR F) (h : cmd wd args = .ok out) :
    out.world = wd ∨ ∃ o, (plainWords args)[1]? = some o ∧
      ((∃ d, o = '$' :: d ∧ OnlyVar wd out.world d) ∨ (isVar o = false ∧ OnlyFile io wd out.world o)) := by
  simp only [← argsFilter_eq] at *
  rcases hc with rfl | rfl | rfl | rfl | rfl | rfl | rfl | ⟨k, rfl⟩ <;>
    exact transformU_frame io _ _ _ wd args out h

-- `dct2 $v $d` on a workspace holding a picture of doubles.
example (io : FileIO PayR F) (ext : Val PayR → Act (Val PayR)) (fs : F) :
    let wd : World PayR F := ⟨⟨[("v".toList, .atom tyDouble (.real (picture 3 2 fun x y => (x : ℝ) - 2 * y)))]⟩, fs⟩
    ∃ out, dct2Cmd io ext wd ["$v".toList, "$d".toList] = .ok out ∧
      (out.world = wd ∨ ∃ o, (plainWords ["$v".toList, "$d".toList])[1]? = some o ∧
        ((∃ d, o = '$' :: d ∧ OnlyVar wd out.world d) ∨ (isVar o = false ∧ OnlyFile io wd out.world o))) := by
  intro wd
  obtain ⟨⟨mid, g, -⟩, -⟩ := C138_double io ext [] 3 2 (by decide) (by decide)
    (picture 3 2 fun x y => (x : ℝ) - 2 * y) _ (picture_shows ..)
  obtain ⟨w1, e1, -⟩ := g wd ["$v".toList, "$d".toList] "v".toList "d".toList (by decide +kernel) rfl
  exact ⟨_, e1, C138_frame io ext [] _ (by simp [isTransformCmd]) wd _ _ e1⟩

/-- A missing argument, a missing variable, or one that holds neither an image nor a container of numbers:
`dct2`, `idct2`, the conversions and the plane commands do nothing. -/
theorem C138_rejected (io : FileIO PayR F) (ext : Val PayR → Act (Val PayR))
    (cmd : World PayR F → List Str → Res (Out PayR F))
    (hc : cmd = dct2Cmd io ext ∨ cmd = idct2Cmd io ext ∨ cmd = im2doubleCmd io ext ∨ cmd = im2uint8Cmd io ext ∨
      cmd = hsv2rgbCmd io ext ∨ ∃ k, cmd = planeCmd k io ext)
    (wd : World PayR F) (args : List Str) :
    ((plainWords args).length < 2 → Nothing wd (cmd wd args)) ∧
    (∀ v b more, plainWords args = ('$' :: v) :: b :: more →
      (∀ u, wd.ws.retrieveAny v = some u → (∀ t, u.ty ≠ .image t) ∧ ∀ k t, u.ty ≠ .cont k t) →
      Nothing wd (cmd wd args)) := by
  simp only [← argsFilter_eq] at *
  have key : ∀ check : Ty → Bool, (check = isMasterImage ∨ check = isMasterData) →
      ∀ core : List Str → Str → Val PayR → Act (Val PayR),
      let c := transformU io 2 check (fun f p => some (core f p))
      ((argsFilter args).length < 2 → Nothing wd (c wd args)) ∧
      (∀ v b more, argsFilter args = ('$' :: v) :: b :: more →
        (∀ u, wd.ws.retrieveAny v = some u → (∀ t, u.ty ≠ .image t) ∧ ∀ k t, u.ty ≠ .cont k t) →
        Nothing wd (c wd args)) := by
    intro check hcheck core
    refine ⟨fun h => ?_, fun v b more ha hv => ?_⟩
    · unfold Nothing transformU
      rw [if_pos h]
      rfl
    · unfold Nothing transformU
      rw [ha]
      simp only [List.length_cons]
      rw [if_neg (by omega)]
      rw [loadVar_none io check wd v (fun u hu => by
        have := hv u hu
        revert this
        generalize u.ty = t
        rcases hcheck with rfl | rfl <;> cases t <;> simp [isMasterImage, isMasterData])]
      rfl
  rcases hc with rfl | rfl | rfl | rfl | rfl | ⟨k, rfl⟩
  · exact key _ (.inl rfl) _
  · exact key _ (.inl rfl) _
  · exact key _ (.inr rfl) _
  · exact key _ (.inr rfl) _
  · exact key _ (.inr rfl) _
  · exact key _ (.inl rfl) _

example (io : FileIO PayR F) (ext : Val PayR → Act (Val PayR)) (wd : World PayR F) :
    Nothing wd (dct2Cmd io ext wd ["$v".toList]) :=
  (C138_rejected io ext _ (.inl rfl) wd _).1 (by decide +kernel)

/-! ## C139 -/

theorem bicubicCmd_gives {io : FileIO PayR F} {ext : Val PayR → Act (Val PayR)} {x y : Val PayR} {nw nh : Nat}
    (hnw : nw < 2 ^ 64) (hnh : nh < 2 ^ 64) (more : List Str) (h : resizeVal ext nw nh x = .done y)
    (hx : isMasterImage x.ty = true) (hy : isMasterImage y.ty = true) :
    Gives (bicubicCmd io ext) (Nat.toDigits 10 nw :: Nat.toDigits 10 nh :: more) x y := by
  have pw : parseSize (Nat.toDigits 10 nw) = some nw := parseSize_toStr hnw
  have ph : parseSize (Nat.toDigits 10 nh) = some nh := parseSize_toStr hnh
  refine gives_of (by simp) (fun a b policy => ?_) hx hy
  dsimp only
  rw [pw, ph]
  exact ⟨_, rfl, by rw [dispatchPolicy_same, h]⟩

theorem dblMax_pos : 0 < dblMax := by
  unfold dblMax
  have : (2⁻¹ : ℝ) ^ 52 < 1 := pow_lt_one₀ (by norm_num) (by norm_num) (by norm_num)
  have h2 : (0 : ℝ) < 2 ^ 1023 := by positivity
  exact mul_pos (by linarith) h2

theorem dblMax_eq : dblMax = largest := by
  have key : ∀ n : Nat, (2 - 2⁻¹ ^ 52 : ℝ) * 2 ^ (n + 52) = 2 ^ (n + 53) - 2 ^ n := by
    intro n
    rw [pow_add, pow_add]
    norm_num
    ring
  exact key 971

theorem resize_shows {im : Image ℝ} {w h : Nat} {f : Nat → Nat → ℝ} (s : im.Shows w h f) (hw : 0 < w)
    (hh : 0 < h) (nw nh : Nat) (hnw : nw < 2 ^ 64) (hnh : nh < 2 ^ 64) (hf : nw * nh < 2 ^ 64) :
    ∃ out, copyResizeBicubic (-dblMax) dblMax im nw nh = .ok out ∧
      out.Shows nw nh fun x y => limit (-largest) largest
        (cubicAt w h f ((x : ℝ) * ((w : ℝ) / nw)) ((y : ℝ) * ((h : ℝ) / nh))) := by
  rw [← dblMax_eq]
  exact C112_resize_partial s hw hh nw nh hnw hnh hf _ _ (by have := dblMax_pos; linarith) _ (.refl _)

/-- `bicubic_resize $v $d nw nh` on an image of `double` stores an image of the asked size with the bicubic
value at every proportional position. Missing: 8-bit images, which are not interpolated
(`C139_bicubic_byte_violation`). -/
theorem C139_bicubic_partial (io : FileIO PayR F) (ext : Val PayR → Act (Val PayR)) (more : List Str)
    (w h : Nat) (hw : 0 < w) (hh : 0 < h) (nw nh : Nat) (hnw : nw < 2 ^ 64) (hnh : nh < 2 ^ 64)
    (hf : nw * nh < 2 ^ 64) (im : Image ℝ) (f : Nat → Nat → ℝ) (s : im.Shows w h f) :
    ∃ out, Gives (bicubicCmd io ext) (Nat.toDigits 10 nw :: Nat.toDigits 10 nh :: more)
        (.atom tyDouble (.real im)) (.atom tyDouble (.real out)) ∧
      out.Shows nw nh fun x y => limit (-largest) largest
        (cubicAt w h f ((x : ℝ) * ((w : ℝ) / nw)) ((y : ℝ) * ((h : ℝ) / nh))) := by
  obtain ⟨out, e, so⟩ := resize_shows s hw hh nw nh hnw hnh hf
  exact ⟨out, bicubicCmd_gives hnw hnh more
    (by simp [resizeVal, tyDouble, planar_of_shows s hw hh, e, Act.ofImage]) rfl rfl, so⟩

example (io : FileIO PayR F) (ext : Val PayR → Act (Val PayR)) := C139_bicubic_partial io ext [] 3 2 (by decide)
  (by decide) 5 7 (by decide) (by decide) (by decide) (picture 3 2 fun x y => (x : ℝ) - 2 * y) _ (picture_shows ..)

/-- The same, channel by channel, for images of three floating-point channels. Missing: 8-bit colour images, see
`C139_bicubic_byte_violation`. -/
theorem C139_bicubic_three_partial (io : FileIO PayR F) (ext : Val PayR → Act (Val PayR)) (more : List Str)
    (w h : Nat) (hw : 0 < w) (hh : 0 < h) (nw nh : Nat) (hw' : 0 < nw) (hh' : 0 < nh) (hnw : nw < 2 ^ 64)
    (hnh : nh < 2 ^ 64) (hf : nw * nh < 2 ^ 64) (im : Image (Px3 ℝ)) (f : Nat → Nat → Px3 ℝ)
    (s : im.Shows w h f) (t : Ty) (ht : t = tyRgbDouble ∨ t = tyHsv) :
    ∃ out, Gives (bicubicCmd io ext) (Nat.toDigits 10 nw :: Nat.toDigits 10 nh :: more)
        (.atom t (.tri im)) (.atom t (.tri out)) ∧
      out.Shows nw nh fun x y =>
        let value (g : Nat → Nat → ℝ) : ℝ := limit (-largest) largest
          (cubicAt w h g ((x : ℝ) * ((w : ℝ) / nw)) ((y : ℝ) * ((h : ℝ) / nh)))
        ⟨value fun x y => (f x y).c0, value fun x y => (f x y).c1, value fun x y => (f x y).c2⟩ := by
  obtain ⟨A, a1, a2⟩ := resize_shows (map_shows s Px3.c0) hw hh nw nh hnw hnh hf
  obtain ⟨B, b1, b2⟩ := resize_shows (map_shows s Px3.c1) hw hh nw nh hnw hnh hf
  obtain ⟨C, c1, c2⟩ := resize_shows (map_shows s Px3.c2) hw hh nw nh hnw hnh hf
  obtain ⟨out, e, so, -, -, -⟩ := applyEach_planes 0 0
    (fun p => copyResizeBicubic (-dblMax) dblMax p nw nh) s hw hh hw' hh' a1 b1 c1 a2 b2 c2
  refine ⟨out, bicubicCmd_gives hnw hnh more ?_ ?_ ?_, so⟩
  · rcases ht with rfl | rfl <;>
      simp [resizeVal, tyRgbDouble, tyHsv, planar_of_shows s hw hh, e, Act.ofImage]
  · rcases ht with rfl | rfl <;> rfl
  · rcases ht with rfl | rfl <;> rfl

example (io : FileIO PayR F) (ext : Val PayR → Act (Val PayR)) := C139_bicubic_three_partial io ext [] 3 2 (by decide)
  (by decide) 5 7 (by decide) (by decide) (by decide) (by decide) (by decide) (picture 3 2 fun x y => ⟨x, y, 7⟩) _
  (picture_shows ..) tyHsv (.inr rfl)

/-- Violation: on 8-bit grey and colour images the command takes the nearest pixel to the left and above
instead of interpolating. -/
theorem C139_bicubic_byte_violation (io : FileIO PayR F) (ext : Val PayR → Act (Val PayR)) (more : List Str)
    (w h : Nat) (hw : 0 < w) (hh : 0 < h) (nw nh : Nat) (hw' : 0 < nw) (hh' : 0 < nh) (hnw : nw < 2 ^ 64)
    (hnh : nh < 2 ^ 64) (hf : nw * nh < 2 ^ 64) :
    (∀ (im : Image (BitVec 8)) (f : Nat → Nat → BitVec 8), im.Shows w h f →
      ∃ out, Gives (bicubicCmd io ext) (Nat.toDigits 10 nw :: Nat.toDigits 10 nh :: more)
        (.atom tyByte (.bytes im)) (.atom tyByte (.bytes out)) ∧
        out.Shows nw nh fun x y => f (x * w / nw) (y * h / nh)) ∧
    (∀ (im : Image RGB) (f : Nat → Nat → RGB), im.Shows w h f →
      ∃ out, Gives (bicubicCmd io ext) (Nat.toDigits 10 nw :: Nat.toDigits 10 nh :: more)
        (.atom tyRgb (.rgb im)) (.atom tyRgb (.rgb out)) ∧
        out.Shows nw nh fun x y => f (x * w / nw) (y * h / nh)) := by
  constructor
  · intro im f s
    obtain ⟨out, e, so, -⟩ := C43_resize (0 : BitVec 8) s hw hh nw nh hnw hnh hf
    exact ⟨out, bicubicCmd_gives hnw hnh more (by
      unfold resizeVal tyByte
      dsimp only
      rw [if_pos (planar_of_shows s hw hh), C112_u8_violation s hw hh nw nh hnw hnh hf, e]
      rfl) rfl rfl, so⟩
  · intro im f s
    obtain ⟨out, e, so, -⟩ := C43_resize (⟨0, 0, 0⟩ : RGB) s hw hh nw nh hnw hnh hf
    exact ⟨out, bicubicCmd_gives hnw hnh more (by
      rw [show resizeVal ext nw nh (.atom tyRgb (.rgb im)) = if planar im then _ else _ from rfl]
      rw [if_pos (planar_of_shows s hw hh), C112_rgb_violation s hw hh nw nh hw' hh' hnw hnh hf, e]
      rfl) rfl rfl, so⟩

theorem splitIdx_perm {w h : Nat} {order : List Nat} (hp : order.Perm (List.range (w * h))) :
    (splitIdx w order).Perm (iterYX w h) := by
  refine (hp.map _).trans ?_
  rw [List.perm_ext_iff_of_nodup]
  · rintro ⟨x, y⟩
    rw [mem_iterYX]
    exact splitIdx_mem (.refl _) x y
  · refine List.Nodup.map_on ?_ List.nodup_range
    intro a _ b _ hab
    rw [Prod.mk.injEq] at hab
    rw [← Nat.div_add_mod a w, ← Nat.div_add_mod b w, hab.1, hab.2]
  · exact iterYX_nodup w h

theorem dblEps_pos : 0 < dblEps := by unfold dblEps; positivity

theorem dblEps_le : dblEps ≤ 1 / 2 := by
  unfold dblEps
  calc (2⁻¹ : ℝ) ^ 52 ≤ 2⁻¹ ^ 1 := pow_le_pow_of_le_one (by norm_num) (by norm_num) (by norm_num)
    _ = 1 / 2 := by norm_num

theorem toInt32_small {a : Nat} (h : a < 2 ^ 31) : Gen.toInt32 a = a := by
  unfold Gen.toInt32; omega

/-- The arguments `nw nh`, or `nw nh a` and anything after: the radius they ask for. -/
theorem lanczosCmd_gives {io : FileIO PayR F} {ext : Val PayR → Act (Val PayR)} {x y : Val PayR}
    {nw nh a : Nat} {order : List Nat} (hnw : nw < 2 ^ 64) (hnh : nh < 2 ^ 64) (params : List Str)
    (hp : a = 3 ∧ params = [] ∨ a < 2 ^ 64 ∧ ∃ more, params = Nat.toDigits 10 a :: more)
    (h : ∀ pts : List (Nat × Nat), pts.Perm (iterYX nw nh) → lanczosVal ext pts nw nh (Gen.toInt32 a) x = .done y)
    (ho : order.Perm (List.range (nw * nh)))
    (hx : isMasterImage x.ty = true) (hy : isMasterImage y.ty = true) :
    Gives (lanczosCmd io ext order) (Nat.toDigits 10 nw :: Nat.toDigits 10 nh :: params) x y := by
  have pw : parseSize (Nat.toDigits 10 nw) = some nw := parseSize_toStr hnw
  have ph : parseSize (Nat.toDigits 10 nh) = some nh := parseSize_toStr hnh
  have h1 := h _ (splitIdx_perm ho)
  have h2 := h _ (.refl _)
  refine gives_of (by simp) (fun p q policy => ?_) hx hy
  dsimp only
  rw [pw, ph]
  rcases hp with ⟨rfl, rfl⟩ | ⟨ha, more, rfl⟩
  · refine ⟨_, rfl, ?_⟩
    rw [h1, h2]
    exact dispatchPolicy_same _ _
  · have pa : parseSize (Nat.toDigits 10 a) = some a := parseSize_toStr ha
    dsimp only
    rw [pa]
    refine ⟨_, rfl, ?_⟩
    rw [h1, h2]
    exact dispatchPolicy_same _ _

theorem lanczos_shows {α : Type} (cv : Conv α) (zero : α) {im : Image α} {w h : Nat} {f : Nat → Nat → α}
    (s : im.Shows w h f) (hw : 0 < w) (hh : 0 < h) (nw nh : Nat) (hnw : nw < 2 ^ 64) (hnh : nh < 2 ^ 64)
    (hf : nw * nh < 2 ^ 64) {a : Nat} (ha : 0 < a) (hwa : w + a < 2 ^ 31) (hha : h + a < 2 ^ 31) :
    ∃ out, out.Shows nw nh (fun x y => cv.fromR (lanczosAt a w h nw nh (fun x y => cv.toR (f x y)) x y)) ∧
      ∀ pts : List (Nat × Nat), pts.Perm (iterYX nw nh) →
        lanczosOrd cv zero dblEps pts im nw nh (Gen.toInt32 a) = .ok out := by
  obtain ⟨out, e, so⟩ := C113_resample cv zero s hw hh nw nh hnw hnh hf dblEps_pos dblEps_le ha hwa hha _
    (.refl _)
  refine ⟨out, so, fun pts hp => ?_⟩
  rw [toInt32_small (by omega)]
  obtain ⟨out', e', so'⟩ := C113_resample cv zero s hw hh nw nh hnw hnh hf dblEps_pos dblEps_le ha hwa hha _ hp
  rw [e', so'.ext so fun _ _ _ _ => rfl]

/-- `lanczos_resample $v $d nw nh` (radius 3) and `lanczos_resample $v $d nw nh a` store an image of the
asked size and the type of `v` whose pixels are the Lanczos averages, channel by channel, with any policy
word and any order of the pixels; 8-bit values are limited to 0 … 255 and rounded down. Missing: radius 0
and radii from 2^31 on (`C139_radius_violation`), images of 2^31 pixels and more on a side. -/
theorem C139_lanczos_partial (io : FileIO PayR F) (ext : Val PayR → Act (Val PayR)) (order : List Nat)
    (w h : Nat) (hw : 0 < w) (hh : 0 < h) (nw nh : Nat) (hw' : 0 < nw) (hh' : 0 < nh) (hnw : nw < 2 ^ 64)
    (hnh : nh < 2 ^ 64) (hf : nw * nh < 2 ^ 64) (ho : order.Perm (List.range (nw * nh))) (params : List Str)
    (a : Nat) (hp : AsksRadius params a) (ha : 0 < a) (hwa : w + a < 2 ^ 31) (hha : h + a < 2 ^ 31) :
    (∀ (im : Image ℝ) (f : Nat → Nat → ℝ), im.Shows w h f →
      ∃ out, Gives (lanczosCmd io ext order) (Nat.toDigits 10 nw :: Nat.toDigits 10 nh :: params)
        (.atom tyDouble (.real im)) (.atom tyDouble (.real out)) ∧
        out.Shows nw nh (lanczosAt a w h nw nh f)) ∧
    (∀ (im : Image (BitVec 8)) (f : Nat → Nat → BitVec 8), im.Shows w h f →
      ∃ out, Gives (lanczosCmd io ext order) (Nat.toDigits 10 nw :: Nat.toDigits 10 nh :: params)
        (.atom tyByte (.bytes im)) (.atom tyByte (.bytes out)) ∧
        out.Shows nw nh fun x y =>
          BitVec.ofNat 8 ⌊limit 0 255 (lanczosAt a w h nw nh (fun x y => ((f x y).toNat : ℝ)) x y)⌋₊) ∧
    (∀ (im : Image (Px3 ℝ)) (f : Nat → Nat → Px3 ℝ) (t : Ty), im.Shows w h f → t = tyRgbDouble ∨ t = tyHsv →
      ∃ out, Gives (lanczosCmd io ext order) (Nat.toDigits 10 nw :: Nat.toDigits 10 nh :: params)
        (.atom t (.tri im)) (.atom t (.tri out)) ∧
        out.Shows nw nh fun x y => ⟨lanczosAt a w h nw nh (fun x y => (f x y).c0) x y,
          lanczosAt a w h nw nh (fun x y => (f x y).c1) x y, lanczosAt a w h nw nh (fun x y => (f x y).c2) x y⟩) ∧
    (∀ (im : Image RGB) (f : Nat → Nat → RGB), im.Shows w h f →
      ∃ out, Gives (lanczosCmd io ext order) (Nat.toDigits 10 nw :: Nat.toDigits 10 nh :: params)
        (.atom tyRgb (.rgb im)) (.atom tyRgb (.rgb out)) ∧
        out.Shows nw nh fun x y =>
          let value (c : RGB → BitVec 8) : BitVec 8 :=
            BitVec.ofNat 8 ⌊limit 0 255 (lanczosAt a w h nw nh (fun x y => ((c (f x y)).toNat : ℝ)) x y)⌋₊
          ⟨value Px3.c0, value Px3.c1, value Px3.c2⟩) := by
  have hp' : a = 3 ∧ params = [] ∨ a < 2 ^ 64 ∧ ∃ more, params = Nat.toDigits 10 a :: more :=
    hp.imp id fun h => ⟨by omega, h⟩
  have hcv : ∀ r : ℝ, Conv.u8.fromR r = BitVec.ofNat 8 ⌊limit 0 255 r⌋₊ := by
    intro r
    simp only [Conv.u8, limit]
    split_ifs with h1 h2
    · rw [min_eq_left h1.le, max_eq_right (by norm_num)]
      norm_num
    · rw [min_eq_right (by linarith), max_eq_left h2.le]
      norm_num
    · rw [min_eq_right (by linarith), max_eq_right (by linarith)]
  refine ⟨?_, ?_, ?_, ?_⟩
  · intro im f s
    obtain ⟨out, so, e⟩ := lanczos_shows .real 0 s hw hh nw nh hnw hnh hf ha hwa hha
    refine ⟨out, lanczosCmd_gives hnw hnh params hp' (fun pts hpts => ?_) ho rfl rfl, so⟩
    rw [show lanczosVal ext pts nw nh (Gen.toInt32 a) (.atom tyDouble (.real im))
      = if planar im then _ else _ from rfl, if_pos (planar_of_shows s hw hh), e pts hpts]
    rfl
  · intro im f s
    obtain ⟨out, so, e⟩ := lanczos_shows .u8 0 s hw hh nw nh hnw hnh hf ha hwa hha
    refine ⟨out, lanczosCmd_gives hnw hnh params hp' (fun pts hpts => ?_) ho rfl rfl,
      so.congr fun x y _ _ => hcv _⟩
    rw [show lanczosVal ext pts nw nh (Gen.toInt32 a) (.atom tyByte (.bytes im))
      = if planar im then _ else _ from rfl, if_pos (planar_of_shows s hw hh), e pts hpts]
    rfl
  · intro im f t s ht
    obtain ⟨A, a1, a2⟩ := lanczos_shows .real 0 (map_shows s Px3.c0) hw hh nw nh hnw hnh hf ha hwa hha
    obtain ⟨B, b1, b2⟩ := lanczos_shows .real 0 (map_shows s Px3.c1) hw hh nw nh hnw hnh hf ha hwa hha
    obtain ⟨C, c1, c2⟩ := lanczos_shows .real 0 (map_shows s Px3.c2) hw hh nw nh hnw hnh hf ha hwa hha
    have key : ∀ pts : List (Nat × Nat), pts.Perm (iterYX nw nh) → _ := fun pts hpts =>
      applyEach_planes 0 0 (fun p => lanczosOrd .real 0 dblEps pts p nw nh (Gen.toInt32 a)) s hw hh hw' hh'
        (a2 pts hpts) (b2 pts hpts) (c2 pts hpts) a1 b1 c1
    obtain ⟨out, e, so, -, -, -⟩ := key _ (.refl _)
    refine ⟨out, lanczosCmd_gives hnw hnh params hp' (fun pts hpts => ?_) ho ?_ ?_, so⟩
    · obtain ⟨out', e', so', -, -, -⟩ := key pts hpts
      rw [so'.ext so fun _ _ _ _ => rfl] at e'
      rcases ht with rfl | rfl
      · rw [show lanczosVal ext pts nw nh (Gen.toInt32 a) (.atom tyRgbDouble (.tri im))
          = if planar im then _ else _ from rfl, if_pos (planar_of_shows s hw hh), e']
        rfl
      · rw [show lanczosVal ext pts nw nh (Gen.toInt32 a) (.atom tyHsv (.tri im))
          = if planar im then _ else _ from rfl, if_pos (planar_of_shows s hw hh), e']
        rfl
    · rcases ht with rfl | rfl <;> rfl
    · rcases ht with rfl | rfl <;> rfl
  · intro im f s
    obtain ⟨A, a1, a2⟩ := lanczos_shows .u8 0 (map_shows s Px3.c0) hw hh nw nh hnw hnh hf ha hwa hha
    obtain ⟨B, b1, b2⟩ := lanczos_shows .u8 0 (map_shows s Px3.c1) hw hh nw nh hnw hnh hf ha hwa hha
    obtain ⟨C, c1, c2⟩ := lanczos_shows .u8 0 (map_shows s Px3.c2) hw hh nw nh hnw hnh hf ha hwa hha
    have key : ∀ pts : List (Nat × Nat), pts.Perm (iterYX nw nh) → _ := fun pts hpts =>
      applyEach_planes 0 0 (fun p => lanczosOrd .u8 0 dblEps pts p nw nh (Gen.toInt32 a)) s hw hh hw' hh'
        (a2 pts hpts) (b2 pts hpts) (c2 pts hpts) a1 b1 c1
    obtain ⟨out, e, so, -, -, -⟩ := key _ (.refl _)
    refine ⟨out, lanczosCmd_gives hnw hnh params hp' (fun pts hpts => ?_) ho rfl rfl, so.congr fun x y _ _ => ?_⟩
    · obtain ⟨out', e', so', -, -, -⟩ := key pts hpts
      rw [so'.ext so fun _ _ _ _ => rfl] at e'
      rw [show lanczosVal ext pts nw nh (Gen.toInt32 a) (.atom tyRgb (.rgb im))
        = if planar im then _ else _ from rfl, if_pos (planar_of_shows s hw hh), e']
      rfl
    · simp only [hcv]
      rfl

example (io : FileIO PayR F) (ext : Val PayR → Act (Val PayR)) := (C139_lanczos_partial io ext _ 3 2 (by decide)
  (by decide) 5 7 (by decide) (by decide) (by decide) (by decide) (by decide) (List.reverse_perm _)
  [Nat.toDigits 10 2] 2 (.inr ⟨[], rfl⟩) (by decide) (by decide) (by decide)).1
  (picture 3 2 fun x y => (x : ℝ) - 2 * y) _ (picture_shows ..)

/-- Resampling to the same size gives the stored image, whatever the radius. -/
theorem C139_lanczos_same_size (io : FileIO PayR F) (ext : Val PayR → Act (Val PayR)) (order : List Nat)
    (w h : Nat) (hw : 0 < w) (hh : 0 < h) (ho : order.Perm (List.range (w * h))) (params : List Str)
    (a : Nat) (hp : AsksRadius params a) (ha : 0 < a) (hwa : w + a < 2 ^ 31) (hha : h + a < 2 ^ 31) :
    (∀ (im : Image ℝ) (f : Nat → Nat → ℝ), im.Shows w h f →
      Gives (lanczosCmd io ext order) (Nat.toDigits 10 w :: Nat.toDigits 10 h :: params)
        (.atom tyDouble (.real im)) (.atom tyDouble (.real im))) ∧
    (∀ (im : Image (BitVec 8)) (f : Nat → Nat → BitVec 8), im.Shows w h f →
      Gives (lanczosCmd io ext order) (Nat.toDigits 10 w :: Nat.toDigits 10 h :: params)
        (.atom tyByte (.bytes im)) (.atom tyByte (.bytes im))) := by
  have hp' : a = 3 ∧ params = [] ∨ a < 2 ^ 64 ∧ ∃ more, params = Nat.toDigits 10 a :: more :=
    hp.imp id fun h => ⟨by omega, h⟩
  constructor
  · intro im f s
    obtain ⟨out, so, e⟩ := lanczos_shows .real 0 s hw hh w h s.w_lt s.h_lt s.fits ha hwa hha
    have e0 := C113_same_size .real (fun _ => rfl) 0 s hw hh dblEps_pos dblEps_le ha hwa hha
    rw [lanczos, ← toInt32_small (show a < 2 ^ 31 by omega), e _ (.refl _)] at e0
    injection e0 with e0
    refine lanczosCmd_gives s.w_lt s.h_lt params hp' (fun pts hpts => ?_) ho rfl rfl
    rw [show lanczosVal ext pts w h (Gen.toInt32 a) (.atom tyDouble (.real im))
      = if planar im then _ else _ from rfl, if_pos (planar_of_shows s hw hh), e pts hpts, e0]
    rfl
  · intro im f s
    obtain ⟨out, so, e⟩ := lanczos_shows .u8 0 s hw hh w h s.w_lt s.h_lt s.fits ha hwa hha
    have e0 := C113_same_size .u8 u8_roundtrip 0 s hw hh dblEps_pos dblEps_le ha hwa hha
    rw [lanczos, ← toInt32_small (show a < 2 ^ 31 by omega), e _ (.refl _)] at e0
    injection e0 with e0
    refine lanczosCmd_gives s.w_lt s.h_lt params hp' (fun pts hpts => ?_) ho rfl rfl
    rw [show lanczosVal ext pts w h (Gen.toInt32 a) (.atom tyByte (.bytes im))
      = if planar im then _ else _ from rfl, if_pos (planar_of_shows s hw hh), e pts hpts, e0]
    rfl

example (io : FileIO PayR F) (ext : Val PayR → Act (Val PayR)) := (C139_lanczos_same_size io ext _ 3 2 (by decide)
  (by decide) (List.reverse_perm _) [] 3 (.inl ⟨rfl, rfl⟩) (by decide) (by decide) (by decide)).2
  (picture 3 2 fun x y => BitVec.ofNat 8 (50 * x + y)) _ (picture_shows ..)

theorem lanczos_zero_radius {im : Image ℝ} {w h : Nat} {f : Nat → Nat → ℝ} (s : im.Shows w h f) (hw : 0 < w)
    (hh : 0 < h) (hw31 : w < 2 ^ 31) (hh31 : h < 2 ^ 31) (nw nh : Nat) (pts : List (Nat × Nat))
    (hp : ∀ p ∈ pts, p.1 < nw ∧ p.2 < nh) (o : Image ℝ) :
    loop (fun out p => do
      let xOld := ((p.1 : ℝ) + 0.5) * ((im.width : ℝ) / (nw : ℝ)) - 0.5
      let yOld := ((p.2 : ℝ) + 0.5) * ((im.height : ℝ) / (nh : ℝ)) - 0.5
      let s ← lanczosSums .real dblEps 0 im xOld yOld
      if s.2 ≠ 0 then out.set2 p.1 p.2 (Conv.real.fromR (s.1 / s.2)) else .ok out) pts o = .ok o := by
  induction pts with
  | nil => rfl
  | cons p pts ih =>
    obtain ⟨hx, hy⟩ := hp p (by simp)
    have hu := centre_floor hx hw
    have hv := centre_floor hy hh
    have hi : ∀ k : Int, -1 ≤ k → k < 2 ^ 31 → i32 k = .ok k := by
      intro k h1 h2; rw [i32, if_pos (by omega)]
    have hz : lanczosSums .real dblEps 0 im (((p.1 : ℝ) + 0.5) * ((im.width : ℝ) / (nw : ℝ)) - 0.5)
        (((p.2 : ℝ) + 0.5) * ((im.height : ℝ) / (nh : ℝ)) - 0.5) = .ok (0, 0) := by
      rw [s.width, s.height]
      unfold lanczosSums
      have he : ∀ k : Int, intUp (k - 0 + 1) (k + 0) = [] := by
        intro k; simp [intUp]
      rw [hi _ hu.1 (by omega), Res.ok_bind, hi _ (by omega) (by omega), Res.ok_bind, hi _ (by omega) (by omega),
        Res.ok_bind, hi _ hv.1 (by omega), Res.ok_bind, hi _ (by omega) (by omega), Res.ok_bind,
        hi _ (by omega) (by omega), Res.ok_bind, he, he]
      rfl
    show (_ >>= fun o' => loop _ pts o') = _
    dsimp only
    rw [hz, Res.ok_bind]
    simp only [ne_eq, not_true, if_false, Res.ok_bind]
    exact ih fun q hq => hp q (by simp [hq])

/-- Violation: the radius is converted to `int`, so the radii 0, 2^32, 2·2^32, … are accepted and the
stored image is black, whatever the input shows. -/
theorem C139_radius_violation (io : FileIO PayR F) (ext : Val PayR → Act (Val PayR)) (order : List Nat)
    (w h : Nat) (hw : 0 < w) (hh : 0 < h) (hw31 : w < 2 ^ 31) (hh31 : h < 2 ^ 31) (nw nh : Nat)
    (hnw : nw < 2 ^ 64) (hnh : nh < 2 ^ 64) (hf : nw * nh < 2 ^ 64) (ho : order.Perm (List.range (nw * nh)))
    (k : Nat) (hk : k < 2 ^ 32) (more : List Str) (im : Image ℝ) (f : Nat → Nat → ℝ) (s : im.Shows w h f) :
    ∃ out, Gives (lanczosCmd io ext order)
        (Nat.toDigits 10 nw :: Nat.toDigits 10 nh :: Nat.toDigits 10 (2 ^ 32 * k) :: more)
        (.atom tyDouble (.real im)) (.atom tyDouble (.real out)) ∧
      out.Shows nw nh fun _ _ => 0 := by
  have s0 := ofSizes_shows (0 : ℝ) hnw hnh hf
  have h0 : Gen.toInt32 (2 ^ 32 * k : Nat) = 0 := by
    unfold Gen.toInt32; omega
  refine ⟨_, lanczosCmd_gives (a := 2 ^ 32 * k) hnw hnh _ (.inr ⟨by omega, more, rfl⟩) (fun pts hpts => ?_) ho
    rfl rfl, s0⟩
  rw [h0, show lanczosVal ext pts nw nh 0 (.atom tyDouble (.real im))
      = if planar im then _ else _ from rfl, if_pos (planar_of_shows s hw hh)]
  unfold lanczosOrd
  rw [if_neg (by simp [s.dim])]
  dsimp only
  rw [lanczos_zero_radius s hw hh hw31 hh31 nw nh pts (fun p hm => mem_iterYX.mp (hpts.mem_iff.mp hm))]
  rfl

/-- A missing size does nothing; a size without digits makes the commands fail; a missing variable, or one
that holds no image, does nothing. -/
theorem C139_rejected (io : FileIO PayR F) (ext : Val PayR → Act (Val PayR)) (order : List Nat)
    (wd : World PayR F) (args : List Str) (cmd : World PayR F → List Str → Res (Out PayR F))
    (hc : cmd = bicubicCmd io ext ∨ cmd = lanczosCmd io ext order) :
    ((plainWords args).length < 4 → Nothing wd (cmd wd args)) ∧
    (∀ a b x y more, plainWords args = a :: b :: x :: y :: more → (∀ c ∈ x, ¬ c.isDigit) ∨ (∀ c ∈ y, ¬ c.isDigit) →
      Failed wd (cmd wd args)) ∧
    (∀ v b nw nh, plainWords args = ('$' :: v) :: b :: Nat.toDigits 10 nw :: [Nat.toDigits 10 nh] →
      nw < 2 ^ 64 → nh < 2 ^ 64 → (∀ u, wd.ws.retrieveAny v = some u → ∀ t, u.ty ≠ .image t) →
      Nothing wd (cmd wd args)) := by
  simp only [← argsFilter_eq] at *
  have hnone : ∀ v : Str, (∀ u, wd.ws.retrieveAny v = some u → ∀ t, u.ty ≠ .image t) →
      loadArg io isMasterImage wd ('$' :: v) = .ok none := fun v hv =>
    loadVar_none io isMasterImage wd v (fun u hu => by
      have := hv u hu
      revert this
      generalize u.ty = t
      cases t <;> simp [isMasterImage])
  refine ⟨?_, ?_, ?_⟩
  · intro h
    rcases hc with rfl | rfl <;>
    · unfold Nothing
      first
        | unfold bicubicCmd
        | unfold lanczosCmd
      unfold transformU
      rw [if_pos h]
      rfl
  · intro a b x y more ha hbad
    have hn : parseSize x = none ∨ parseSize y = none := hbad.imp parseSize_nodigit parseSize_nodigit
    rcases hc with rfl | rfl <;>
    · unfold Failed
      first
        | unfold bicubicCmd
        | unfold lanczosCmd
      unfold transformU
      rw [ha]
      simp only [List.length_cons]
      rw [if_neg (by omega)]
      rcases hn with hn | hn <;> simp only [hn]
      · rfl
      · cases parseSize x <;> rfl
  · intro v b nw nh ha hnw hnh hv
    have pw : parseSize (Nat.toDigits 10 nw) = some nw := parseSize_toStr hnw
    have ph : parseSize (Nat.toDigits 10 nh) = some nh := parseSize_toStr hnh
    rcases hc with rfl | rfl <;>
    · unfold Nothing
      first
        | unfold bicubicCmd
        | unfold lanczosCmd
      unfold transformU
      rw [ha]
      simp only [List.length_cons, List.length_nil]
      rw [if_neg (by omega)]
      simp only [pw, ph, hnone v hv]
      rfl

example (io : FileIO PayR F) (ext : Val PayR → Act (Val PayR)) (wd : World PayR F) :
    Failed wd (bicubicCmd io ext wd ["$v".toList, "$d".toList, "wide".toList, "20".toList]) :=
  (C139_rejected io ext [] wd _ _ (.inl rfl)).2.1 "$v".toList "$d".toList "wide".toList "20".toList []
    (by decide +kernel) (by decide +kernel)

/-! ## C140 -/

/-- `im2double` stores the pixels as floating-point numbers, and `im2uint8` gives the image back, for colour
and grey 8-bit images. -/
theorem C140_conversion (io : FileIO PayR F) (ext : Val PayR → Act (Val PayR)) (more : List Str) (w h : Nat)
    (hw : 0 < w) (hh : 0 < h) :
    (∀ (im : Image RGB) (f : Nat → Nat → RGB), im.Shows w h f →
      ∃ mid, Gives (im2doubleCmd io ext) more (.atom tyRgb (.rgb im)) (.atom tyRgbDouble (.tri mid)) ∧
        mid.Shows w h (fun x y => ⟨(f x y).c0.toNat, (f x y).c1.toNat, (f x y).c2.toNat⟩) ∧
        Gives (im2uint8Cmd io ext) more (.atom tyRgbDouble (.tri mid)) (.atom tyRgb (.rgb im))) ∧
    (∀ (im : Image (BitVec 8)) (f : Nat → Nat → BitVec 8), im.Shows w h f →
      ∃ mid, Gives (im2doubleCmd io ext) more (.atom tyByte (.bytes im)) (.atom tyDouble (.real mid)) ∧
        mid.Shows w h (fun x y => (f x y).toNat) ∧
        Gives (im2uint8Cmd io ext) more (.atom tyDouble (.real mid)) (.atom tyByte (.bytes im))) := by
  constructor
  · intro im f s
    refine ⟨_, im2doubleCmd_gives more ?_ rfl rfl, map_shows s asReal, im2uint8Cmd_gives more ?_ rfl rfl⟩
    · rw [show im2doubleVal ext (.atom tyRgb (.rgb im)) = Act.ofImage _ _ _ from rfl, im2double_eq s hw hh]
      rfl
    · rw [show ∀ m, im2uint8Val ext (.atom tyRgbDouble (.tri m)) = Act.ofImage tyRgb .rgb (im2uint8 m) from
        fun _ => rfl, im2uint8_asReal s hw hh]
      rfl
  · intro im f s
    refine ⟨_, im2doubleCmd_gives more ?_ rfl rfl, map_shows s real8, im2uint8Cmd_gives more ?_ rfl rfl⟩
    · rw [show im2doubleVal ext (.atom tyByte (.bytes im)) = Act.ofImage _ _ _ from rfl, im2doubleGray,
        cast_byte s hw hh]
      rfl
    · rw [show ∀ m, im2uint8Val ext (.atom tyDouble (.real m)) = Act.ofImage tyByte .bytes (im2uint8Gray m) from
        fun _ => rfl, im2uint8Gray_real s hw hh]
      rfl

example (io : FileIO PayR F) (ext : Val PayR → Act (Val PayR)) := (C140_conversion io ext [] 3 2 (by decide)
  (by decide)).2 (picture 3 2 fun x y => BitVec.ofNat 8 (50 * x + y)) _ (picture_shows ..)

/-- Violation: `im2uint8` of a colour image with a channel of -1 or less, or of 256 or more, is undefined. -/
theorem C140_range_violation (io : FileIO PayR F) (ext : Val PayR → Act (Val PayR)) (wd : World PayR F)
    (args : List Str) (v o : Str) (more : List Str) (ha : plainWords args = ('$' :: v) :: o :: more)
    (im : Image (Px3 ℝ)) (hbad : ∃ p ∈ im.data, (p.c0 ≤ -1 ∨ 256 ≤ p.c0) ∨ (p.c1 ≤ -1 ∨ 256 ≤ p.c1) ∨ (p.c2 ≤ -1 ∨ 256 ≤ p.c2))
    (hv : wd.ws.retrieveAny v = some (.atom tyRgbDouble (.tri im))) :
    im2uint8Cmd io ext wd args = .ub := by
  simp only [← argsFilter_eq] at *
  unfold im2uint8Cmd transformU
  rw [ha]
  simp only [List.length_cons]
  rw [if_neg (by omega)]
  simp only [loadVar io isMasterData wd v _ hv rfl, dispatchPolicy_same]
  rw [show im2uint8Val ext (.atom tyRgbDouble (.tri im)) = Act.ofImage tyRgb .rgb (im2uint8 im) from rfl,
    C103_range_violation im hbad]
  rfl

/-- The conversions refuse an image without pixels, whatever its sizes: nothing is stored. -/
theorem C140_empty (io : FileIO PayR F) (ext : Val PayR → Act (Val PayR)) (more : List Str) (sizes : List Nat) :
    Refuses (im2doubleCmd io ext) more (.atom tyRgb (.rgb ⟨sizes, []⟩)) ∧
    Refuses (im2doubleCmd io ext) more (.atom tyByte (.bytes ⟨sizes, []⟩)) ∧
    Refuses (im2uint8Cmd io ext) more (.atom tyRgbDouble (.tri ⟨sizes, []⟩)) ∧
    Refuses (im2uint8Cmd io ext) more (.atom tyDouble (.real ⟨sizes, []⟩)) := by
  refine ⟨?_, ?_, ?_, ?_⟩ <;>
    exact refuses_of (by simp) (fun _ _ _ => ⟨_, rfl, by rw [dispatchPolicy_same]; rfl⟩) rfl

example : Refuses (F := Unit) (im2doubleCmd ⟨fun _ _ => none, fun _ _ _ => none⟩ fun _ => .threw) [] (.atom tyRgb (.rgb ⟨[0, 4], []⟩)) :=
  (C140_empty _ _ [] [0, 4]).1

theorem planeCmd_gives {k : Nat} {io : FileIO PayR F} {ext : Val PayR → Act (Val PayR)} {x y : Val PayR}
    (more : List Str) (h : planeVal k ext x = .done y) (hx : isMasterImage x.ty = true)
    (hy : isMasterImage y.ty = true) : Gives (planeCmd k io ext) more x y :=
  gives_of (by omega) (fun _ _ _ => ⟨_, rfl, by rw [dispatchPolicy_same, h]⟩) hx hy

theorem getPlane_shows {C : Type} (zero : C) {im : Image (Px3 C)} {w h : Nat} {f : Nat → Nat → Px3 C}
    (s : im.Shows w h f) (hw : 0 < w) (hh : 0 < h) :
    getPlane zero im 0 = .ok ⟨im.size, im.data.map Px3.c0⟩ ∧ getPlane zero im 1 = .ok ⟨im.size, im.data.map Px3.c1⟩ ∧
    getPlane zero im 2 = .ok ⟨im.size, im.data.map Px3.c2⟩ := by
  have hr : (List.range im.count).Perm (List.range im.data.length) := by rw [s.wf.count]
  have h0 := prod_of_shows s hw hh
  exact ⟨getPlaneOrd_ok zero im s.wf h0 0 Px3.c0 (fun _ => rfl) _ hr,
    getPlaneOrd_ok zero im s.wf h0 1 Px3.c1 (fun _ => rfl) _ hr,
    getPlaneOrd_ok zero im s.wf h0 2 Px3.c2 (fun _ => rfl) _ hr⟩

/-- `getRplane`, `getGplane` and `getBplane` store the red, green and blue channel of a colour image as an
8-bit image, and the three channels of a floating-point image as images of `double`. -/
theorem C140_planes (io : FileIO PayR F) (ext : Val PayR → Act (Val PayR)) (more : List Str) (w h : Nat)
    (hw : 0 < w) (hh : 0 < h) :
    (∀ (im : Image RGB) (f : Nat → Nat → RGB), im.Shows w h f → ∃ r g b,
      Gives (planeCmd 0 io ext) more (.atom tyRgb (.rgb im)) (.atom tyByte (.bytes r)) ∧
      Gives (planeCmd 1 io ext) more (.atom tyRgb (.rgb im)) (.atom tyByte (.bytes g)) ∧
      Gives (planeCmd 2 io ext) more (.atom tyRgb (.rgb im)) (.atom tyByte (.bytes b)) ∧
      r.Shows w h (fun x y => (f x y).c0) ∧ g.Shows w h (fun x y => (f x y).c1) ∧
      b.Shows w h (fun x y => (f x y).c2)) ∧
    (∀ (im : Image (Px3 ℝ)) (f : Nat → Nat → Px3 ℝ) (t : Ty), im.Shows w h f → t = tyRgbDouble ∨ t = tyHsv →
      ∃ r g b,
      Gives (planeCmd 0 io ext) more (.atom t (.tri im)) (.atom tyDouble (.real r)) ∧
      Gives (planeCmd 1 io ext) more (.atom t (.tri im)) (.atom tyDouble (.real g)) ∧
      Gives (planeCmd 2 io ext) more (.atom t (.tri im)) (.atom tyDouble (.real b)) ∧
      r.Shows w h (fun x y => (f x y).c0) ∧ g.Shows w h (fun x y => (f x y).c1) ∧
      b.Shows w h (fun x y => (f x y).c2)) := by
  constructor
  · intro im f s
    obtain ⟨h0, h1, h2⟩ := getPlane_shows (0 : BitVec 8) s hw hh
    have key : ∀ k, planeVal k ext (.atom tyRgb (.rgb im)) = Act.ofImage tyByte .bytes (getPlane 0 im k) :=
      fun _ => rfl
    exact ⟨_, _, _, planeCmd_gives more (by rw [key, h0]; rfl) rfl rfl,
      planeCmd_gives more (by rw [key, h1]; rfl) rfl rfl, planeCmd_gives more (by rw [key, h2]; rfl) rfl rfl,
      map_shows s _, map_shows s _, map_shows s _⟩
  · intro im f t s ht
    obtain ⟨h0, h1, h2⟩ := getPlane_shows (0 : ℝ) s hw hh
    have key : ∀ k, planeVal k ext (.atom t (.tri im)) = Act.ofImage tyDouble .real (getPlane 0 im k) := by
      intro k; rcases ht with rfl | rfl <;> rfl
    have hm : isMasterImage t = true := by rcases ht with rfl | rfl <;> rfl
    exact ⟨_, _, _, planeCmd_gives more (by rw [key, h0]; rfl) hm rfl,
      planeCmd_gives more (by rw [key, h1]; rfl) hm rfl, planeCmd_gives more (by rw [key, h2]; rfl) hm rfl,
      map_shows s _, map_shows s _, map_shows s _⟩

example (io : FileIO PayR F) (ext : Val PayR → Act (Val PayR)) := (C140_planes io ext [] 3 2 (by decide) (by decide)).2
  (picture 3 2 fun x y => ⟨x, y, 7⟩) _ tyRgbDouble (picture_shows ..) (.inl rfl)

/-- `hsv2rgb` of the HSV form of a colour image stores a colour image of the same size in which every pixel
has the same brightest and darkest channels. Full statement: the colour image itself; violated, see
`C101_roundtrip_violation`. -/
theorem C140_hsv_partial (io : FileIO PayR F) (ext : Val PayR → Act (Val PayR)) (more : List Str)
    (im : Image RGB) (wf : im.WF) (h0 : 0 < im.size.prod) :
    ∃ hsv out, rgb2hsvImage im = .ok hsv ∧
      Gives (hsv2rgbCmd io ext) more (.atom tyHsv (.tri hsv)) (.atom tyRgb (.rgb out)) ∧ out.size = im.size ∧
      ∀ idx p, im.at' idx = .ok p → ∃ q, out.at' idx = .ok q ∧ KeepsExtremes id p q := by
  obtain ⟨hsv, out, e1, e2, -, hs, hp⟩ := C101_image_partial im wf h0
  refine ⟨hsv, out, e1, gives_of (by omega) (fun _ _ _ => ⟨_, rfl, ?_⟩) rfl rfl, hs, hp⟩
  rw [dispatchPolicy_same, show hsv2rgbVal ext (.atom tyHsv (.tri hsv)) = Act.ofImage tyRgb .rgb (hsv2rgbImage hsv)
    from rfl, e2]
  rfl

example (io : FileIO PayR F) (ext : Val PayR → Act (Val PayR)) := C140_hsv_partial io ext []
  (picture 3 2 fun x y => ⟨BitVec.ofNat 8 (50 * x + y), BitVec.ofNat 8 y, 255⟩) (picture_wf ..) (by decide)

/-- Images of other types are refused: the commands fail and change nothing. -/
theorem C140_refused (io : FileIO PayR F) (ext : Val PayR → Act (Val PayR)) (more : List Str) (p : PayR) :
    (∀ t, t ≠ tyRgb → t ≠ tyByte → isMasterImage t = true → Refuses (im2doubleCmd io ext) more (.atom t p)) ∧
    (∀ t, t ≠ tyRgbDouble → t ≠ tyDouble → isMasterImage t = true →
      Refuses (im2uint8Cmd io ext) more (.atom t p)) ∧
    (∀ t, t ≠ tyHsv → isMasterImage t = true → Refuses (hsv2rgbCmd io ext) more (.atom t p)) ∧
    (∀ k n, Refuses (planeCmd k io ext) more (.atom (.image (.num n)) p)) := by
  have himg : ∀ t, isMasterImage t = true → ∃ t', t = .image t' := by
    intro t; cases t <;> simp [isMasterImage]
  have hdata : ∀ t, isMasterImage t = true → isMasterData t = true := by
    intro t; cases t <;> simp [isMasterImage, isMasterData]
  refine ⟨?_, ?_, ?_, ?_⟩
  · intro t h1 h2 h3
    refine refuses_of (by omega) (fun _ _ _ => ⟨_, rfl, ?_⟩) (hdata t h3)
    rw [dispatchPolicy_same]
    obtain ⟨t', rfl⟩ := himg t h3
    unfold im2doubleVal
    split
    · rename_i e; injection e with e; exact absurd e h1
    · rename_i e; injection e with e; exact absurd e h2
    · rfl
    · rename_i h; exact absurd rfl (h _ _)
  · intro t h1 h2 h3
    refine refuses_of (by omega) (fun _ _ _ => ⟨_, rfl, ?_⟩) (hdata t h3)
    rw [dispatchPolicy_same]
    obtain ⟨t', rfl⟩ := himg t h3
    unfold im2uint8Val
    split
    · rename_i e; injection e with e; exact absurd e h1
    · rename_i e; injection e with e; exact absurd e h2
    · rfl
    · rename_i h; exact absurd rfl (h _ _)
  · intro t h1 h3
    refine refuses_of (by omega) (fun _ _ _ => ⟨_, rfl, ?_⟩) (hdata t h3)
    rw [dispatchPolicy_same]
    obtain ⟨t', rfl⟩ := himg t h3
    unfold hsv2rgbVal
    split
    · rename_i e; injection e with e; exact absurd e h1
    · rfl
    · rename_i h; exact absurd rfl (h _ _)
  · intro k n
    refine refuses_of (by omega) (fun _ _ _ => ⟨_, rfl, ?_⟩) rfl
    rw [dispatchPolicy_same]
    cases p <;> rfl

/-- The pictures and arguments of the theorems exist: a 2 × 1 colour image, policy words around the
arguments, an order of four pixels, the default radius. -/
example : (⟨[2, 1], [⟨1, 2, 3⟩, ⟨4, 5, 6⟩]⟩ : Image RGB).Shows 2 1
      (fun x _ => if x = 0 then ⟨1, 2, 3⟩ else ⟨4, 5, 6⟩) ∧
    plainWords ["par".toList, "$v".toList, "$d".toList, "seq".toList] = ["$v".toList, "$d".toList] ∧
    [3, 0, 2, 1].Perm (List.range (2 * 2)) ∧ AsksRadius [] 3 ∧ AsksRadius [Nat.toDigits 10 5] 5 := by
  refine ⟨?_, by decide +kernel, by decide, .inl ⟨rfl, rfl⟩, .inr ⟨[], rfl⟩⟩
  refine Image.Shows.of_data (by norm_num) (by norm_num) (by norm_num) rfl rfl ?_
  intro x y hx hy
  interval_cases x <;> interval_cases y <;> rfl

/-- The hypotheses of `Gives` are met: a session with a variable `v`, in which `im2double` then `im2uint8`
gives the picture back in the variable `d`. -/
example (io : FileIO PayR F) (ext : Val PayR → Act (Val PayR)) (fs : F) (im : Image RGB) (w h : Nat)
    (f : Nat → Nat → RGB) (s : im.Shows w h f) (hw : 0 < w) (hh : 0 < h) :
    let wd : World PayR F := ⟨⟨[("v".toList, .atom tyRgb (.rgb im))]⟩, fs⟩
    ∃ mid o, im2doubleCmd io ext wd ["$v".toList, "$e".toList] = .ok o ∧
      o.world.ws.retrieveAny "e".toList = some (.atom tyRgbDouble (.tri mid)) ∧
      Stored o.world (im2uint8Cmd io ext o.world ["$e".toList, "$d".toList]) "d".toList (.atom tyRgb (.rgb im)) := by
  intro wd
  obtain ⟨mid, g1, -, g2⟩ := (C140_conversion io ext [] w h hw hh).1 im f s
  obtain ⟨w1, e1, r1, -⟩ := g1 wd ["$v".toList, "$e".toList] "v".toList "e".toList (by decide +kernel) rfl
  exact ⟨mid, _, e1, r1, g2 w1 ["$e".toList, "$d".toList] "e".toList "d".toList (by decide +kernel) r1⟩

end TinyDIP.Props
