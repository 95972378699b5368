import Verif.Lemmas.Samples
import Verif.Model.CliSignal
import Verif.Spec.CliSignal
import Verif.Props.CliTransform
import Verif.Props.Rotate
import Verif.Props.Filter
import Verif.Props.Figure
import Verif.Props.Elementwise
import Verif.Props.Transform
import Verif.Lemmas.Pipe

/-!
# Properties C144, C145, C146: the commands rotate, normalize, sift_generate_octave, dct3, to_complex and
gaussian_figure_2d
-/

namespace TinyDIP.Props

open TinyDIP.Cli TinyDIP.Arith TinyDIP.Resample TinyDIP.Color

variable {F P : Type}

/-! ## C144 -/

theorem reads_clean {dbl : Str → Option ℝ} {a : Str} {v : ℝ} (h : Reads dbl a v) : dbl (sanitize a) = some v := by
  obtain ⟨s, m, e⟩ := h
  rw [means_iff.1 m, e]

theorem rotateCmd_gives {io : FileIO PayR F} {dbl : Str → Option ℝ} {ext : Val PayR → Act (Val PayR)} {a : Str}
    {θ : ℝ} (ha : Reads dbl a θ) {x y : Val PayR} (more : List Str) (h : rotateVal ext θ x = .done y)
    (hx : isMasterImage x.ty = true) (hy : isMasterImage y.ty = true) :
    Gives (rotateCmd io dbl ext) (a :: more) x y := by
  refine gives_of (by simp) (fun p q policy => ?_) hx hy
  dsimp only
  rw [reads_clean ha]
  exact ⟨_, rfl, by rw [dispatchPolicy_same, h]⟩

theorem fromR_toByte (v : ℝ) : Conv.u8.fromR v = Rotation.toByte v := by
  unfold Rotation.toByte
  simp only [Conv.u8]
  split_ifs with h1 h2
  · rw [min_eq_left h1.le, max_eq_right (by norm_num)]
    simp
  · rw [min_eq_right (by linarith), max_eq_left h2.le]
    simp
  · rw [min_eq_right (by linarith), max_eq_right (by linarith)]

theorem turned_size_pos {w h : Nat} (hw : 0 < w) (hh : 0 < h) (θ : ℝ) :
    0 < (Rotation.size w h θ).1 ∧ 0 < (Rotation.size w h θ).2 := by
  have h1 := cos_sin_one θ
  have c := abs_nonneg (Real.cos θ)
  have s := abs_nonneg (Real.sin θ)
  have hw' : (1 : ℝ) ≤ w := by exact_mod_cast hw
  have hh' : (1 : ℝ) ≤ h := by exact_mod_cast hh
  constructor
  · exact Nat.ceil_pos.mpr (by nlinarith)
  · exact Nat.ceil_pos.mpr (by nlinarith)

theorem turn_real {im : Image ℝ} {w h : Nat} {f : Nat → Nat → ℝ} (s : im.Shows w h f) (θ : ℝ)
    (hW : (Rotation.size w h θ).1 < 2 ^ 64) (hH : (Rotation.size w h θ).2 < 2 ^ 64)
    (hf : (Rotation.size w h θ).1 * (Rotation.size w h θ).2 < 2 ^ 64) :
    ∃ out, turn .real 0 θ im = .ok out ∧
      out.Shows (Rotation.size w h θ).1 (Rotation.size w h θ).2 (Rotation.picture id 0 w h f θ) :=
  C143_default Conv.real conv_real_lawful 0 s θ hW hH hf

theorem turn_byte {im : Image (BitVec 8)} {w h : Nat} {f : Nat → Nat → BitVec 8} (s : im.Shows w h f) (θ : ℝ)
    (hW : (Rotation.size w h θ).1 < 2 ^ 64) (hH : (Rotation.size w h θ).2 < 2 ^ 64)
    (hf : (Rotation.size w h θ).1 * (Rotation.size w h θ).2 < 2 ^ 64) :
    ∃ out, turn .u8 0 θ im = .ok out ∧
      out.Shows (Rotation.size w h θ).1 (Rotation.size w h θ).2
        (Rotation.picture Rotation.toByte 0 w h (fun x y => (f x y).toNat) θ) := by
  obtain ⟨out, e, so⟩ := C143_default Conv.u8 conv_u8_lawful 0 s θ hW hH hf
  refine ⟨out, e, so.congr fun X Y _ _ => ?_⟩
  unfold Rotation.picture
  simp only [fromR_toByte]
  rfl

/-- `rotate $v $d angle` on a grey image turns it by the angle, in radians: the stored image has the size of
the turned picture and its pixels. The pixel type is kept. -/
theorem C144_rotate_grey (io : FileIO PayR F) (dbl : Str → Option ℝ) (ext : Val PayR → Act (Val PayR)) (a : Str)
    (θ : ℝ) (ha : Reads dbl a θ) (more : List Str) (w h : Nat) (hw : 0 < w) (hh : 0 < h)
    (hW : (Rotation.size w h θ).1 < 2 ^ 64) (hH : (Rotation.size w h θ).2 < 2 ^ 64)
    (hf : (Rotation.size w h θ).1 * (Rotation.size w h θ).2 < 2 ^ 64) :
    (∀ (im : Image ℝ) (f : Nat → Nat → ℝ), im.Shows w h f →
      ∃ out, Gives (rotateCmd io dbl ext) (a :: more) (.atom tyDouble (.real im)) (.atom tyDouble (.real out)) ∧
        out.Shows (Rotation.size w h θ).1 (Rotation.size w h θ).2 (Rotation.picture id 0 w h f θ)) ∧
    (∀ (im : Image (BitVec 8)) (f : Nat → Nat → BitVec 8), im.Shows w h f →
      ∃ out, Gives (rotateCmd io dbl ext) (a :: more) (.atom tyByte (.bytes im)) (.atom tyByte (.bytes out)) ∧
        out.Shows (Rotation.size w h θ).1 (Rotation.size w h θ).2
          (Rotation.picture Rotation.toByte 0 w h (fun x y => (f x y).toNat) θ)) := by
  constructor
  · intro im f s
    obtain ⟨out, e, so⟩ := turn_real s θ hW hH hf
    refine ⟨out, rotateCmd_gives ha more ?_ rfl rfl, so⟩
    rw [show rotateVal ext θ (.atom tyDouble (.real im)) =
      if planar im then Act.ofImage tyDouble .real (turn .real 0 θ im) else _ from rfl,
      if_pos (planar_of_shows s hw hh), e]
    rfl
  · intro im f s
    obtain ⟨out, e, so⟩ := turn_byte s θ hW hH hf
    refine ⟨out, rotateCmd_gives ha more ?_ rfl rfl, so⟩
    rw [show rotateVal ext θ (.atom tyByte (.bytes im)) =
      if planar im then Act.ofImage tyByte .bytes (turn .u8 0 θ im) else _ from rfl,
      if_pos (planar_of_shows s hw hh), e]
    rfl

example (io : FileIO PayR F) (ext : Val PayR → Act (Val PayR)) := C144_rotate_grey io (fun _ => some (Real.pi / 4)) ext
  ['x'] (Real.pi / 4) ⟨['x'], means_iff.2 (by decide +kernel), rfl⟩ [] 4 3 (by decide) (by decide)
  (by rw [rotation_size_example]; decide) (by rw [rotation_size_example]; decide) (by rw [rotation_size_example]; decide)

/-- The same, channel by channel, for colour images. -/
theorem C144_rotate_colour (io : FileIO PayR F) (dbl : Str → Option ℝ) (ext : Val PayR → Act (Val PayR)) (a : Str)
    (θ : ℝ) (ha : Reads dbl a θ) (more : List Str) (w h : Nat) (hw : 0 < w) (hh : 0 < h)
    (hW : (Rotation.size w h θ).1 < 2 ^ 64) (hH : (Rotation.size w h θ).2 < 2 ^ 64)
    (hf : (Rotation.size w h θ).1 * (Rotation.size w h θ).2 < 2 ^ 64) :
    (∀ (im : Image RGB) (f : Nat → Nat → RGB), im.Shows w h f →
      ∃ out, Gives (rotateCmd io dbl ext) (a :: more) (.atom tyRgb (.rgb im)) (.atom tyRgb (.rgb out)) ∧
        out.Shows (Rotation.size w h θ).1 (Rotation.size w h θ).2 (fun X Y =>
          let channel (c : RGB → BitVec 8) :=
            Rotation.picture Rotation.toByte 0 w h (fun x y => (c (f x y)).toNat) θ X Y
          ⟨channel (·.c0), channel (·.c1), channel (·.c2)⟩)) ∧
    (∀ (im : Image (Px3 ℝ)) (f : Nat → Nat → Px3 ℝ) (t : Ty), t = tyRgbDouble ∨ t = tyHsv → im.Shows w h f →
      ∃ out, Gives (rotateCmd io dbl ext) (a :: more) (.atom t (.tri im)) (.atom t (.tri out)) ∧
        out.Shows (Rotation.size w h θ).1 (Rotation.size w h θ).2 (fun X Y =>
          let channel (c : Px3 ℝ → ℝ) := Rotation.picture id 0 w h (fun x y => c (f x y)) θ X Y
          ⟨channel (·.c0), channel (·.c1), channel (·.c2)⟩)) := by
  obtain ⟨pw, ph⟩ := turned_size_pos hw hh θ
  constructor
  · intro im f s
    obtain ⟨A, a1, a2⟩ := turn_byte (map_shows s Px3.c0) θ hW hH hf
    obtain ⟨B, b1, b2⟩ := turn_byte (map_shows s Px3.c1) θ hW hH hf
    obtain ⟨C, c1, c2⟩ := turn_byte (map_shows s Px3.c2) θ hW hH hf
    obtain ⟨out, e, so, -, -, -⟩ := applyEach_planes 0 0 (turn .u8 0 θ) s hw hh pw ph a1 b1 c1 a2 b2 c2
    refine ⟨out, rotateCmd_gives ha more ?_ rfl rfl, so⟩
    rw [show rotateVal ext θ (.atom tyRgb (.rgb im)) =
      if planar im then Act.ofImage tyRgb .rgb (applyEach 0 0 (turn .u8 0 θ) im) else _ from rfl,
      if_pos (planar_of_shows s hw hh), e]
    rfl
  · intro im f t ht s
    obtain ⟨A, a1, a2⟩ := turn_real (map_shows s Px3.c0) θ hW hH hf
    obtain ⟨B, b1, b2⟩ := turn_real (map_shows s Px3.c1) θ hW hH hf
    obtain ⟨C, c1, c2⟩ := turn_real (map_shows s Px3.c2) θ hW hH hf
    obtain ⟨out, e, so, -, -, -⟩ := applyEach_planes 0 0 (turn .real 0 θ) s hw hh pw ph a1 b1 c1 a2 b2 c2
    rcases ht with rfl | rfl
    · refine ⟨out, rotateCmd_gives ha more ?_ rfl rfl, so⟩
      rw [show rotateVal ext θ (.atom tyRgbDouble (.tri im)) =
        if planar im then Act.ofImage tyRgbDouble .tri (applyEach 0 0 (turn .real 0 θ) im) else _ from rfl,
        if_pos (planar_of_shows s hw hh), e]
      rfl
    · refine ⟨out, rotateCmd_gives ha more ?_ rfl rfl, so⟩
      rw [show rotateVal ext θ (.atom tyHsv (.tri im)) =
        if planar im then Act.ofImage tyHsv .tri (applyEach 0 0 (turn .real 0 θ) im) else _ from rfl,
        if_pos (planar_of_shows s hw hh), e]
      rfl

/-- A concrete case: the text `x` stands for a quarter of π, the image has 4 × 3 pixels. -/
example : ∃ (dbl : Str → Option ℝ) (im : Image ℝ) (f : Nat → Nat → ℝ),
    Reads dbl ['x'] (Real.pi / 4) ∧ im.Shows 4 3 f ∧
    (Rotation.size 4 3 (Real.pi / 4)).1 < 2 ^ 64 ∧ (Rotation.size 4 3 (Real.pi / 4)).2 < 2 ^ 64 ∧
    (Rotation.size 4 3 (Real.pi / 4)).1 * (Rotation.size 4 3 (Real.pi / 4)).2 < 2 ^ 64 :=
  ⟨fun _ => some (Real.pi / 4), _, _, ⟨['x'], means_iff.2 (by decide +kernel), rfl⟩,
    ofSizes_shows 1 (by decide) (by decide) (by decide), by rw [rotation_size_example]; decide,
    by rw [rotation_size_example]; decide, by rw [rotation_size_example]; decide⟩

/-- Fewer than three arguments, or no image of that name: nothing changes. An angle that is not a number:
the command fails and nothing changes. -/
theorem C144_rotate_rejected (io : FileIO PayR F) (dbl : Str → Option ℝ) (ext : Val PayR → Act (Val PayR))
    (wd : World PayR F) (args : List Str) :
    ((plainWords args).length < 3 → Nothing wd (rotateCmd io dbl ext wd args)) ∧
    (∀ x o a more, plainWords args = x :: o :: a :: more → (∀ s, Means a s → dbl s = none) →
      Failed wd (rotateCmd io dbl ext wd args)) ∧
    (∀ v o a θ more, plainWords args = ('$' :: v) :: o :: a :: more → Reads dbl a θ →
      (∀ u, wd.ws.retrieveAny v = some u → ∀ t, u.ty ≠ .image t) → Nothing wd (rotateCmd io dbl ext wd args)) := by
  simp only [← argsFilter_eq] at *
  refine ⟨?_, ?_, ?_⟩
  · intro h
    unfold Nothing rotateCmd transformU
    rw [if_pos h]
    rfl
  · intro x o a more ha hbad
    have hn : dbl (sanitize a) = none := hbad _ (means_iff.2 rfl)
    unfold Failed rotateCmd transformU
    rw [ha]
    simp only [List.length_cons]
    rw [if_neg (by omega)]
    simp only [hn]
    rfl
  · intro v o a θ more ha hr hv
    have hnone : loadArg io isMasterImage wd ('$' :: v) = .ok none := loadVar_none io isMasterImage wd v (fun u hu => by
      have := hv u hu
      revert this
      generalize u.ty = t
      cases t <;> simp [isMasterImage])
    unfold Nothing rotateCmd transformU
    rw [ha]
    simp only [List.length_cons]
    rw [if_neg (by omega)]
    simp only [reads_clean hr, hnone]
    rfl

/-- `normalize $v $d` on an image of floating-point pixels, with and without a policy word: the stored image
has the pixels `(v - lo) / (hi - lo)`, all between 0 and 1. Full statement: also for images whose pixels are
all equal (`C144_normalize_constant_violation`) and for numbers in containers
(`C144_normalize_numbers_violation`). -/
theorem C144_normalize_partial (io : FileIO PayR F) (quot : ℝ → ℝ → ℝ) (hq : ∀ x y, y ≠ 0 → quot x y = x / y)
    (ext : Val PayR → Act (Val PayR)) (more : List Str) (im : Image ℝ) (wf : im.WF) (lo hi : ℝ)
    (h1 : ∃ idx, im.at' idx = .ok lo) (h2 : ∃ idx, im.at' idx = .ok hi)
    (hr : ∀ idx v, im.at' idx = .ok v → lo ≤ v ∧ v ≤ hi) (hlt : lo < hi) :
    ∃ out, Gives (normalizeCmd io quot ext) more (.atom tyDouble (.real im)) (.atom tyDouble (.real out)) ∧
      out.WF ∧ out.size = im.size ∧
      ∀ idx v, im.at' idx = .ok v → out.at' idx = .ok ((v - lo) / (hi - lo)) ∧
        0 ≤ (v - lo) / (hi - lo) ∧ (v - lo) / (hi - lo) ≤ 1 := by
  obtain ⟨out, e, rest⟩ := C114_normalize_partial quot hq im wf lo hi h1 h2 hr hlt
  refine ⟨out, gives_of (by simp) (fun p q policy => ⟨_, rfl, ?_⟩) rfl rfl, rest⟩
  rw [show normalizeValPolicy quot ext (.atom tyDouble (.real im)) = normalizeVal quot ext (.atom tyDouble (.real im))
    from rfl, dispatchPolicy_same,
    show normalizeVal quot ext (.atom tyDouble (.real im)) = Act.ofImage tyDouble .real (normalize quot im) from rfl, e]
  rfl

example (io : FileIO PayR F) (ext : Val PayR → Act (Val PayR)) := C144_normalize_partial io (· / ·) (fun _ _ _ => rfl) ext []
  (picture 3 1 fun x _ => (x : ℝ)) (picture_wf ..) 0 2
  ⟨[0, 0], by simpa using (picture_shows 3 1 fun x _ => (x : ℝ)).px 0 0 (by decide) (by decide)⟩
  ⟨[2, 0], by simpa using (picture_shows 3 1 fun x _ => (x : ℝ)).px 2 0 (by decide) (by decide)⟩
  (fun idx v h => by
    obtain ⟨x, y, hx, -, -, rfl⟩ := picture_at h
    exact ⟨Nat.cast_nonneg x, by exact_mod_cast Nat.le_of_lt_succ hx⟩) (by norm_num)

/-- Violation: in an image whose pixels are all equal every pixel becomes 0 / 0. -/
theorem C144_normalize_constant_violation (io : FileIO PayR F) (quot : ℝ → ℝ → ℝ)
    (ext : Val PayR → Act (Val PayR)) (more : List Str) (im : Image ℝ) (wf : im.WF) (c : ℝ)
    (h1 : ∃ idx, im.at' idx = .ok c) (hr : ∀ idx v, im.at' idx = .ok v → v = c) :
    ∃ out, Gives (normalizeCmd io quot ext) more (.atom tyDouble (.real im)) (.atom tyDouble (.real out)) ∧
      ∀ idx v, im.at' idx = .ok v → out.at' idx = .ok (quot 0 0) := by
  obtain ⟨out, e, rest⟩ := C114_constant_violation quot im wf c h1 hr
  refine ⟨out, gives_of (by simp) (fun p q policy => ⟨_, rfl, ?_⟩) rfl rfl, rest⟩
  rw [show normalizeValPolicy quot ext (.atom tyDouble (.real im)) = normalizeVal quot ext (.atom tyDouble (.real im))
    from rfl, dispatchPolicy_same,
    show normalizeVal quot ext (.atom tyDouble (.real im)) = Act.ofImage tyDouble .real (normalize quot im) from rfl, e]
  rfl

/-- Images of integers are refused, and nothing changes. -/
theorem C144_normalize_refused (io : FileIO PayR F) (quot : ℝ → ℝ → ℝ) (ext : Val PayR → Act (Val PayR))
    (more : List Str) (n : Num) (hn : n ≠ .double) (p : PayR) :
    Refuses (normalizeCmd io quot ext) more (.atom (.image (.num n)) p) := by
  have h : normalizeVal quot ext (.atom (.image (.num n)) p) = .threw := by
    unfold normalizeVal
    split
    · rename_i e; simp at e; exact absurd e.1 hn
    · rfl
    all_goals simp_all
  refine refuses_of (by simp) (fun a b policy => ⟨_, rfl, ?_⟩) (by cases n <;> rfl)
  rw [show normalizeValPolicy quot ext (.atom (.image (.num n)) p) = normalizeVal quot ext (.atom (.image (.num n)) p)
    from rfl, dispatchPolicy_same, h]

example (io : FileIO PayR F) (ext : Val PayR → Act (Val PayR)) := C144_normalize_refused io (· / ·) ext [] .uchar (by decide)
  (.bytes ⟨[2, 1], [1, 2]⟩)

theorem policy_iff (p : Str) : isPolicy p = true ↔ PolicyWord p := by
  unfold isPolicy PolicyWord
  simp only [Bool.or_eq_true, beq_iff_eq, sSeq, sPar, sParUnseq, sUnseq, List.mem_cons, List.not_mem_nil, or_false]
  tauto

theorem argsFilter_plain {l : List Str} (h : ∀ a ∈ l, ¬ PolicyWord a) : argsFilter l = l := by
  rw [argsFilter_eq]
  unfold plainWords
  rw [List.filter_eq_self]
  simpa using h

/-- Violation: a container of numbers is refused without a policy word; with one, the same refusal happens
inside a parallel algorithm and ends the process. -/
theorem C144_normalize_numbers_violation (io : FileIO PayR F) (quot : ℝ → ℝ → ℝ) (ext : Val PayR → Act (Val PayR))
    (k : Kind) (n : Num) (x : Val PayR) (xs : List (Val PayR)) (wd : World PayR F) (v o : Str) (more : List Str)
    (hplain : ∀ a ∈ o :: more, ¬ PolicyWord a) (hv : wd.ws.retrieveAny v = some (.cont k (.num n) (x :: xs))) :
    Failed wd (normalizeCmd io quot ext wd (('$' :: v) :: o :: more)) ∧
    ∀ p, PolicyWord p → normalizeCmd io quot ext wd (p :: ('$' :: v) :: o :: more) = .ok ⟨wd, .terminated, none⟩ := by
  have hd : ¬ PolicyWord ('$' :: v) := by
    unfold PolicyWord
    simp only [List.mem_cons, List.not_mem_nil, or_false]
    rintro (h | h | h | h) <;> · injection h with h; revert h; decide
  have hf : argsFilter (('$' :: v) :: o :: more) = ('$' :: v) :: o :: more :=
    argsFilter_plain (by simpa [hd] using hplain)
  have he : extractPolicy (('$' :: v) :: o :: more) = [] := by
    have : ∀ l : List Str, (∀ a ∈ l, ¬ PolicyWord a) → extractPolicy l = [] := by
      intro l
      induction l with
      | nil => intro _; rfl
      | cons a as ih =>
        intro h
        rw [extractPolicy, if_neg (fun hp => h a (by simp) ((policy_iff a).1 hp)), ih (fun b hb => h b (by simp [hb]))]
    exact this _ (by simpa [hd] using hplain)
  constructor
  · refine transformU_threw io 2 isMasterData _ wd _ v o more _ _ hf (by simp) rfl hv rfl ?_
    rw [he]
    rfl
  · intro p hp
    have hf' : argsFilter (p :: ('$' :: v) :: o :: more) = ('$' :: v) :: o :: more := by
      rw [argsFilter, if_pos ((policy_iff p).2 hp), hf]
    have he' : extractPolicy (p :: ('$' :: v) :: o :: more) = p := by
      rw [extractPolicy, if_pos ((policy_iff p).2 hp)]
    unfold normalizeCmd transformU
    rw [hf', he']
    simp only [List.length_cons]
    rw [if_neg (by omega)]
    simp only [loadVar io isMasterData wd v _ hv rfl]
    have : ∀ (β : Type) (a b : β), dispatchPolicy p (fun _ => a) b = a := by
      intro β a b
      unfold PolicyWord at hp
      simp only [List.mem_cons, List.not_mem_nil, or_false] at hp
      rcases hp with rfl | rfl | rfl | rfl <;> rfl
    rw [this]
    rfl

/-- A concrete case of the hypotheses. -/
example : ∃ (wd : World PayR Unit) (x : Val PayR),
    wd.ws.retrieveAny "v".toList = some (.cont .vector (.num .double) [x]) ∧
    ∀ a ∈ ["$d".toList], ¬ PolicyWord a :=
  ⟨⟨⟨[("v".toList, .cont .vector (.num .double) [.atom (.num .double) (.other)])]⟩, ()⟩, _, rfl, by
    simp [PolicyWord]⟩

/-! ## C145 -/

theorem dog_shows {im : Image ℝ} {w h : Nat} {f : Nat → Nat → ℝ} (s : im.Shows w h f) {s1 s2 : ℝ}
    (h1 : 0 ≤ s1) (h2 : 0 ≤ s2) (hb1 : Filter.WindowFits w h s1) (hb2 : Filter.WindowFits w h s2)
    (hw : w < 2 ^ 31) (hh : h < 2 ^ 31) (hf : (4 * w + 1) * (4 * h + 1) < 2 ^ 64) :
    ∃ out, Filter.differenceOfGaussian im s1 s2 = .ok out ∧
      out.Shows w h (fun x y => Filter.smoothed w h f s1 x y - Filter.smoothed w h f s2 x y) := by
  unfold Filter.WindowFits at hb1 hb2
  obtain ⟨a, b, out, fa, fb, ea, eb, eo, sa, sb, so⟩ :=
    Filter.C107_dog_partial im w h f s s1 s2 h1 h2 hb1 hb2 hw hh hf
  have hlt : ∀ n : Nat, n < w → n < h → (w + 3 * n + 1) * (h + 3 * n + 1) < 2 ^ 64 := fun n hnw hnh =>
    lt_of_le_of_lt (Nat.mul_le_mul (by omega) (by omega)) hf
  obtain ⟨a', ea', sa'⟩ := Filter.C105_filter_partial im w h f s (by omega) (by omega) (Filter.autoSize s1)
    (Filter.autoSize s1) (by unfold Filter.autoSize; omega) (by unfold Filter.autoSize; omega) s1 s1 .mirror 0 hb1
    (by omega) (by omega) (hlt _ hb1.1 hb1.2)
  obtain ⟨b', eb', sb'⟩ := Filter.C105_filter_partial im w h f s (by omega) (by omega) (Filter.autoSize s2)
    (Filter.autoSize s2) (by unfold Filter.autoSize; omega) (by unfold Filter.autoSize; omega) s2 s2 .mirror 0 hb2
    (by omega) (by omega) (hlt _ hb2.1 hb2.2)
  rw [ea] at ea'
  rw [eb] at eb'
  injection ea' with ea'
  injection eb' with eb'
  subst ea' eb'
  refine ⟨out, eo, so.congr fun x y hx hy => ?_⟩
  have q1 := (sa.px x y hx hy).symm.trans (sa'.px x y hx hy)
  have q2 := (sb.px x y hx hy).symm.trans (sb'.px x y hx hy)
  injection q1 with q1
  injection q2 with q2
  rw [q1, q2]
  rfl

/-- Writing `d i` into slot `i`, in any order. -/
theorem loop_slots {β : Type} (body : Nat → Res β) (d : Nat → β) (n : Nat) (order : List Nat)
    (ho : order.Perm (List.range n)) (hb : ∀ i < n, body i = .ok (d i)) (z : List β) (hz : z.length = n) :
    loop (fun out i => do let v ← body i; vset out i v) order z = .ok ((List.range n).map d) := by
  obtain ⟨out, e, hl, hp⟩ := loop_inv (body := fun out i => do let v ← body i; vset out i v)
    (P := fun rest out => (∀ i ∈ rest, i < n) ∧ out.length = n ∧ ∀ i < n, i ∉ rest → out[i]? = some (d i))
    (by
      rintro b bs out ⟨h1, h2, h3⟩
      have hbn := h1 b (by simp)
      refine ⟨out.set b (d b), by rw [hb b hbn, Res.ok_bind, vset_eq_ok _ (by omega)],
        fun i hi => h1 i (by simp [hi]), by simp [h2], fun i hi hni => ?_⟩
      by_cases hib : i = b
      · subst hib; rw [List.getElem?_set_self (by omega)]
      · rw [List.getElem?_set_ne (Ne.symm hib)]
        exact h3 i hi (by simp [hib, hni]))
    order z ⟨fun i hi => List.mem_range.1 (ho.mem_iff.1 hi), hz, fun i hi hni =>
      (hni (ho.mem_iff.2 (List.mem_range.2 hi))).elim⟩
  rw [e]
  congr 1
  refine List.ext_getElem? fun i => ?_
  by_cases hi : i < n
  · rw [hp.2 i hi (by simp)]; simp [hi]
  · rw [List.getElem?_eq_none (by omega), List.getElem?_eq_none (by simp; omega)]

theorem octave_shows {im : Image ℝ} {w h : Nat} {f : Nat → Nat → ℝ} (s : im.Shows w h f) {sigma k : ℝ}
    (hs : 0 ≤ sigma) (hk : 0 ≤ k) {levels : Nat} (hl : 2 ≤ levels) (hl' : levels ≤ 2 ^ 31)
    (hfit : ∀ i < levels, Filter.WindowFits w h (sigma * k ^ i))
    (hw : w < 2 ^ 31) (hh : h < 2 ^ 31) (hf : (4 * w + 1) * (4 * h + 1) < 2 ^ 64) {order : List Nat}
    (ho : order.Perm (List.range (levels - 1))) :
    ∃ out, octave order im levels sigma k = .ok out ∧ out.length = levels - 1 ∧
      StackShows out w h (fun i x y =>
        Filter.smoothed w h f (sigma * k ^ i) x y - Filter.smoothed w h f (sigma * k ^ (i + 1)) x y) := by
  have hpos : ∀ i, 0 ≤ sigma * k ^ i := fun i => mul_nonneg hs (pow_nonneg hk i)
  have hex : ∀ i, ∃ d, i < levels - 1 → Filter.differenceOfGaussian im (sigma * k ^ i) (sigma * k ^ (i + 1)) = .ok d ∧
      d.Shows w h (fun x y =>
        Filter.smoothed w h f (sigma * k ^ i) x y - Filter.smoothed w h f (sigma * k ^ (i + 1)) x y) := by
    intro i
    by_cases hi : i < levels - 1
    · obtain ⟨d, e⟩ := dog_shows s (hpos i) (hpos (i + 1)) (hfit i (by omega)) (hfit (i + 1) (by omega)) hw hh hf
      exact ⟨d, fun _ => e⟩
    · exact ⟨im, fun h => (hi h).elim⟩
  choose d hd using hex
  refine ⟨(List.range (levels - 1)).map d, ?_, by simp, ?_⟩
  · unfold octave
    rw [if_neg (by omega), if_neg (by omega)]
    exact loop_slots _ d _ _ ho (fun i hi => (hd i hi).1) _ (by simp)
  · intro i hi
    simp at hi
    exact ⟨d i, by simp [hi], (hd i hi).2⟩

/-- An octave of a picture with `levels` scale levels has `levels - 1` images; image `i` is the picture
smoothed with `sigma k^i` minus the picture smoothed with `sigma k^(i + 1)`. The order in which the threads
produce them has no influence. Full statement: also when a window is not smaller than the image
(`C145_small_violation`). -/
theorem C145_octave_partial (im : Image ℝ) (w h : Nat) (f : Nat → Nat → ℝ) (s : im.Shows w h f) (sigma k : ℝ)
    (hs : 0 ≤ sigma) (hk : 0 ≤ k) (levels : Nat) (hl : 2 ≤ levels) (hl' : levels ≤ 2 ^ 31)
    (hfit : ∀ i < levels, Filter.WindowFits w h (sigma * k ^ i))
    (hw : w < 2 ^ 31) (hh : h < 2 ^ 31) (hf : (4 * w + 1) * (4 * h + 1) < 2 ^ 64) :
    ∃ out, out.length = levels - 1 ∧
      StackShows out w h (fun i x y =>
        Filter.smoothed w h f (sigma * k ^ i) x y - Filter.smoothed w h f (sigma * k ^ (i + 1)) x y) ∧
      ∀ order : List Nat, order.Perm (List.range (levels - 1)) → octave order im levels sigma k = .ok out := by
  obtain ⟨out, e, h1, h2⟩ := octave_shows s hs hk hl hl' hfit hw hh hf (List.Perm.refl (List.range (levels - 1)))
  refine ⟨out, h1, h2, fun order ho => ?_⟩
  obtain ⟨out', e', h1', h2'⟩ := octave_shows s hs hk hl hl' hfit hw hh hf ho
  rw [e']
  congr 1
  refine List.ext_getElem? fun i => ?_
  by_cases hi : i < levels - 1
  · obtain ⟨a, ea, sa⟩ := h2 i (by omega)
    obtain ⟨b, eb, sb⟩ := h2' i (by omega)
    rw [ea, eb, sb.ext sa fun _ _ _ _ => rfl]
  · rw [List.getElem?_eq_none (by omega), List.getElem?_eq_none (by omega)]

/-- The images of an octave add up to the picture smoothed with the smallest standard deviation minus the
picture smoothed with the largest. -/
theorem C145_sum (im : Image ℝ) (w h : Nat) (f : Nat → Nat → ℝ) (s : im.Shows w h f) (sigma k : ℝ)
    (hs : 0 ≤ sigma) (hk : 0 ≤ k) (levels : Nat) (hl : 2 ≤ levels) (hl' : levels ≤ 2 ^ 31)
    (hfit : ∀ i < levels, Filter.WindowFits w h (sigma * k ^ i))
    (hw : w < 2 ^ 31) (hh : h < 2 ^ 31) (hf : (4 * w + 1) * (4 * h + 1) < 2 ^ 64) (order : List Nat)
    (ho : order.Perm (List.range (levels - 1))) (out : List (Image ℝ))
    (e : octave order im levels sigma k = .ok out) (g : Nat → Nat → Nat → ℝ) (hg : StackShows out w h g)
    (x y : Nat) (hx : x < w) (hy : y < h) :
    ∑ i ∈ Finset.range out.length, g i x y =
      Filter.smoothed w h f sigma x y - Filter.smoothed w h f (sigma * k ^ (levels - 1)) x y := by
  obtain ⟨out', e', h1, h2⟩ := octave_shows s hs hk hl hl' hfit hw hh hf ho
  rw [e] at e'
  injection e' with e'
  subst e'
  have hsum : ∑ i ∈ Finset.range out.length, g i x y = ∑ i ∈ Finset.range (levels - 1),
      (Filter.smoothed w h f (sigma * k ^ i) x y - Filter.smoothed w h f (sigma * k ^ (i + 1)) x y) := by
    rw [h1]
    refine Finset.sum_congr rfl fun i hi => ?_
    have hi := Finset.mem_range.1 hi
    obtain ⟨a, ea, sa⟩ := hg i (by omega)
    obtain ⟨b, eb, sb⟩ := h2 i (by omega)
    rw [ea] at eb
    injection eb with eb
    subst eb
    have := (sa.px x y hx hy).symm.trans (sb.px x y hx hy)
    injection this
  rw [hsum, Finset.sum_range_sub']
  simp

/-- Fewer than two levels: no image. -/
theorem C145_few (order : List Nat) (im : Image ℝ) (levels : Nat) (h : levels < 2) (sigma k : ℝ) :
    octave order im levels sigma k = .ok [] := by
  unfold octave
  rw [if_pos h]

theorem dog_throws {im : Image ℝ} {w h : Nat} {f : Nat → Nat → ℝ} (s : im.Shows w h f) {s1 s2 : ℝ}
    (h1 : 0 ≤ s1) (h2 : 0 ≤ s2) (hbad : ¬ Filter.WindowFits w h s1 ∨ ¬ Filter.WindowFits w h s2)
    (hw : w < 2 ^ 29) (hh : h < 2 ^ 29) (hb1 : Filter.autoSize s1 < 2 ^ 29) (hb2 : Filter.autoSize s2 < 2 ^ 29) :
    Filter.differenceOfGaussian im s1 s2 = .throw .runtime := by
  have thr : ∀ t : ℝ, ¬ Filter.WindowFits w h t → Filter.autoSize t < 2 ^ 29 →
      Filter.imgaussfilt im t t (Filter.autoSize t) (Filter.autoSize t) .mirror 0 = .throw .runtime := by
    intro t ht hn
    refine (Filter.C106_rejected im t t .mirror 0).2.2 w h f _ _ s ?_ (by omega) (by omega) ?_
    · unfold Filter.WindowFits at ht; omega
    · calc _ ≤ 2 ^ 31 * 2 ^ 31 := Nat.mul_le_mul (by omega) (by omega)
        _ < 2 ^ 64 := by norm_num
  have hf : (4 * w + 1) * (4 * h + 1) < 2 ^ 64 :=
    lt_of_le_of_lt (Nat.mul_le_mul (show 4 * w + 1 ≤ 2 ^ 31 by omega) (show 4 * h + 1 ≤ 2 ^ 31 by omega)) (by norm_num)
  rw [Filter.dog_unfold im h1 h2 (by omega) (by omega)]
  by_cases hw1 : Filter.WindowFits w h s1
  · have hw2 : ¬ Filter.WindowFits w h s2 := hbad.resolve_left (not_not.2 hw1)
    have hlt : (w + 3 * Filter.autoSize s1 + 1) * (h + 3 * Filter.autoSize s1 + 1) < 2 ^ 64 :=
      lt_of_le_of_lt (Nat.mul_le_mul (by have := hw1.1; omega) (by have := hw1.2; omega)) hf
    obtain ⟨a, ea, -⟩ := Filter.C105_filter_partial im w h f s (by have := hw1.1; omega) (by have := hw1.2; omega)
      (Filter.autoSize s1) (Filter.autoSize s1) (by unfold Filter.autoSize; omega)
      (by unfold Filter.autoSize; omega) s1 s1 .mirror 0 hw1 (by omega) (by omega) hlt
    rw [ea, Res.ok_bind, thr s2 hw2 hb2]
    rfl
  · rw [thr s1 hw1 hb1]; rfl

theorem octave_throws {im : Image ℝ} {w h : Nat} {f : Nat → Nat → ℝ} (s : im.Shows w h f) {sigma k : ℝ}
    (hs : 0 ≤ sigma) (hk : 0 ≤ k) {levels : Nat} (hl : 2 ≤ levels) (hl' : levels ≤ 2 ^ 31)
    (hbad : ∃ i < levels, ¬ Filter.WindowFits w h (sigma * k ^ i))
    (hsz : ∀ i < levels, Filter.autoSize (sigma * k ^ i) < 2 ^ 29)
    (hw : w < 2 ^ 29) (hh : h < 2 ^ 29) {order : List Nat} (ho : order.Perm (List.range (levels - 1))) :
    octave order im levels sigma k = .throw .runtime := by
  have hpos : ∀ i, 0 ≤ sigma * k ^ i := fun i => mul_nonneg hs (pow_nonneg hk i)
  have hf : (4 * w + 1) * (4 * h + 1) < 2 ^ 64 :=
    lt_of_le_of_lt (Nat.mul_le_mul (show 4 * w + 1 ≤ 2 ^ 31 by omega) (show 4 * h + 1 ≤ 2 ^ 31 by omega)) (by norm_num)
  unfold octave
  rw [if_neg (by omega), if_neg (by omega)]
  obtain ⟨i, hi, hni⟩ := hbad
  have hj : ∃ j ∈ order, ¬ Filter.WindowFits w h (sigma * k ^ j) ∨ ¬ Filter.WindowFits w h (sigma * k ^ (j + 1)) := by
    by_cases h0 : i < levels - 1
    · exact ⟨i, ho.mem_iff.2 (List.mem_range.2 h0), .inl hni⟩
    · refine ⟨i - 1, ho.mem_iff.2 (List.mem_range.2 (by omega)), .inr ?_⟩
      rwa [show i - 1 + 1 = i by omega]
  have hlt : ∀ j ∈ order, j < levels - 1 := fun j hj => List.mem_range.1 (ho.mem_iff.1 hj)
  have hz : (List.replicate (levels - 1) (⟨[], []⟩ : Image ℝ)).length = levels - 1 := by simp
  clear ho
  generalize List.replicate (levels - 1) (⟨[], []⟩ : Image ℝ) = z at hz
  induction order generalizing z with
  | nil => obtain ⟨j, hj, -⟩ := hj; simp at hj
  | cons a as ih =>
    have ha := hlt a (by simp)
    show (_ >>= fun o' => loop _ as o') = _
    dsimp only
    by_cases hb : ¬ Filter.WindowFits w h (sigma * k ^ a) ∨ ¬ Filter.WindowFits w h (sigma * k ^ (a + 1))
    · rw [dog_throws s (hpos a) (hpos (a + 1)) hb hw hh (hsz a (by omega)) (hsz (a + 1) (by omega))]
      rfl
    · rw [not_or, not_not, not_not] at hb
      obtain ⟨d, e, -⟩ := dog_shows s (hpos a) (hpos (a + 1)) hb.1 hb.2 (by omega) (by omega) hf
      rw [e, Res.ok_bind, vset_eq_ok _ (by omega), Res.ok_bind]
      refine ih ?_ (fun j hj => hlt j (by simp [hj])) _ (by simp [hz])
      obtain ⟨j, hj, hjb⟩ := hj
      rcases List.mem_cons.1 hj with rfl | hj
      · exact (not_or.2 ⟨not_not.2 hb.1, not_not.2 hb.2⟩ hjb).elim
      · exact ⟨j, hj, hjb⟩

theorem asksOctave_read {dbl : Str → Option ℝ} {params : List Str} {levels : Nat} {sigma k : ℝ} :
    AsksOctave dbl params levels sigma k →
    octaveLevels params = some levels ∧ octaveSigma dbl params = some sigma ∧ octaveK dbl params = some k := by
  rintro ⟨h1, h2, h3⟩
  match params with
  | [] => exact ⟨congrArg some h1.symm, congrArg some h2.symm, congrArg some h3.symm⟩
  | [a] => exact ⟨h1.2 ▸ parseSize_toStr h1.1, congrArg some h2.symm, congrArg some h3.symm⟩
  | [a, b] => exact ⟨h1.2 ▸ parseSize_toStr h1.1, reads_clean h2, congrArg some h3.symm⟩
  | a :: b :: c :: _ => exact ⟨h1.2 ▸ parseSize_toStr h1.1, reads_clean h2, reads_clean h3⟩

theorem octaveCmd_act (io : FileIO PayR F) (dbl : Str → Option ℝ) (order : List Nat)
    (wd : World PayR F) (v d : Str) (params : List Str) (levels : Nat)
    (sigma k : ℝ) (ha : AsksOctave dbl params levels sigma k) (x : Val PayR) (hv : wd.ws.retrieveAny v = some x)
    (hx : isMasterImage x.ty = true) :
    octaveCmd io dbl order wd (('$' :: v) :: ('$' :: d) :: params) =
      match octaveVal order levels sigma k x with
      | .ub => .ub
      | .threw => raise wd
      | .terminated => .ok ⟨wd, .terminated, none⟩
      | .done none => quiet wd
      | .done (some r) => .ok ⟨{ wd with ws := wd.ws.put d r }, .returned, none⟩ := by
  obtain ⟨e1, e2, e3⟩ := asksOctave_read ha
  unfold octaveCmd
  dsimp only
  rw [if_pos (show isVar ('$' :: d) = true from rfl), e1, e2, e3]
  dsimp only
  rw [loadVar io isMasterImage wd v x hv hx]
  rfl

/-- `sift_generate_octave $v $d [levels [sigma [k]]]` stores a vector with the images of the octave, for
images of floating-point pixels and, with the byte values as numbers, for 8-bit images; what is left out is
5, 1.6 and √2. -/
theorem C145_command_partial (io : FileIO PayR F) (dbl : Str → Option ℝ) (order : List Nat)
    (wd : World PayR F) (v d : Str) (params : List Str) (levels : Nat)
    (sigma k : ℝ) (ha : AsksOctave dbl params levels sigma k) (hs : 0 ≤ sigma) (hk : 0 ≤ k) (hl : 2 ≤ levels)
    (hl' : levels ≤ 2 ^ 31) (w h : Nat) (hfit : ∀ i < levels, Filter.WindowFits w h (sigma * k ^ i))
    (hw : w < 2 ^ 31) (hh : h < 2 ^ 31) (hf : (4 * w + 1) * (4 * h + 1) < 2 ^ 64)
    (ho : order.Perm (List.range (levels - 1))) (f : Nat → Nat → ℝ)
    (hx : (∃ im : Image ℝ, wd.ws.retrieveAny v = some (.atom tyDouble (.real im)) ∧ im.Shows w h f) ∨
      ∃ (im : Image (BitVec 8)) (b : Nat → Nat → BitVec 8), wd.ws.retrieveAny v = some (.atom tyByte (.bytes im)) ∧
        im.Shows w h b ∧ ∀ x y, f x y = (b x y).toNat) :
    ∃ out : List (Image ℝ), Stored wd (octaveCmd io dbl order wd (('$' :: v) :: ('$' :: d) :: params)) d
        (.cont .vector tyDouble (out.map fun im => .atom tyDouble (.real im))) ∧
      out.length = levels - 1 ∧
      StackShows out w h (fun i x y =>
        Filter.smoothed w h f (sigma * k ^ i) x y - Filter.smoothed w h f (sigma * k ^ (i + 1)) x y) := by
  rcases hx with ⟨im, hv, s⟩ | ⟨im, b, hv, s, hb⟩
  · obtain ⟨out, e, h1, h2⟩ := octave_shows s hs hk hl hl' hfit hw hh hf ho
    refine ⟨out, stored_put _ _ _ _ ?_, h1, h2⟩
    rw [octaveCmd_act io dbl order wd v d params levels sigma k ha _ hv rfl]
    simp only [octaveVal, tyDouble, e]
    rfl
  · have hp : 0 < w ∧ 0 < h := by
      have := hfit 0 (by omega)
      exact ⟨by have := this.1; omega, by have := this.2; omega⟩
    have sm := map_shows s real8
    have sm' : (⟨im.size, im.data.map real8⟩ : Image ℝ).Shows w h f := sm.congr fun x y _ _ => (hb x y).symm
    obtain ⟨out, e, h1, h2⟩ := octave_shows sm' hs hk hl hl' hfit hw hh hf ho
    refine ⟨out, stored_put _ _ _ _ ?_, h1, h2⟩
    rw [octaveCmd_act io dbl order wd v d params levels sigma k ha _ hv rfl]
    simp only [octaveVal, tyByte, im2doubleGray, cast_byte s hp.1 hp.2, e]
    rfl

/-- Violation: when the window of some level is not smaller than the image, an exception leaves a parallel
loop and the process ends. -/
theorem C145_small_violation (io : FileIO PayR F) (dbl : Str → Option ℝ) (order : List Nat)
    (wd : World PayR F) (v d : Str) (params : List Str) (levels : Nat)
    (sigma k : ℝ) (ha : AsksOctave dbl params levels sigma k) (hs : 0 ≤ sigma) (hk : 0 ≤ k) (hl : 2 ≤ levels)
    (hl' : levels ≤ 2 ^ 31) (w h : Nat) (hbad : ∃ i < levels, ¬ Filter.WindowFits w h (sigma * k ^ i))
    (hsz : ∀ i < levels, Filter.autoSize (sigma * k ^ i) < 2 ^ 29) (hw : w < 2 ^ 29) (hh : h < 2 ^ 29)
    (ho : order.Perm (List.range (levels - 1))) (im : Image ℝ) (f : Nat → Nat → ℝ)
    (hv : wd.ws.retrieveAny v = some (.atom tyDouble (.real im))) (s : im.Shows w h f) :
    octaveCmd io dbl order wd (('$' :: v) :: ('$' :: d) :: params) = .ok ⟨wd, .terminated, none⟩ := by
  rw [octaveCmd_act io dbl order wd v d params levels sigma k ha _ hv rfl]
  simp only [octaveVal, tyDouble, octave_throws s hs hk hl hl' hbad hsz hw hh ho]

theorem default_windows (i : Nat) (hi : i < 5) : Filter.autoSize (1.6 * Real.sqrt 2 ^ i) ≤ 27 := by
  have h2 : Real.sqrt 2 ^ 2 = 2 := Real.sq_sqrt (by norm_num)
  have h0 : 0 ≤ Real.sqrt 2 := Real.sqrt_nonneg 2
  have hb : Real.sqrt 2 ≤ 1.5 := by nlinarith
  have hle : (1.6 : ℝ) * Real.sqrt 2 ^ i ≤ 6.4 := by
    have : i = 0 ∨ i = 1 ∨ i = 2 ∨ i = 3 ∨ i = 4 := by omega
    rcases this with rfl | rfl | rfl | rfl | rfl
    · norm_num
    · rw [pow_one]; nlinarith
    · rw [h2]; norm_num
    · rw [pow_succ, h2]; nlinarith
    · rw [show (4 : Nat) = 2 * 2 by rfl, pow_mul, h2]; norm_num
  have : ⌈2 * (1.6 * Real.sqrt 2 ^ i)⌉ ≤ 13 := Int.ceil_le.2 (by push_cast; linarith)
  unfold Filter.autoSize
  omega

theorem default_last_window : Filter.autoSize (1.6 * Real.sqrt 2 ^ 4) = 27 := by
  have h2 : Real.sqrt 2 ^ 2 = 2 := Real.sq_sqrt (by norm_num)
  have : ⌈2 * (1.6 * Real.sqrt 2 ^ 4)⌉ = 13 := by
    rw [show (4 : Nat) = 2 * 2 by rfl, pow_mul, h2, Int.ceil_eq_iff]
    norm_num
  unfold Filter.autoSize
  rw [this]
  rfl

/-- With the default values the command needs images larger than 27 pixels in both directions: for those it
stores four images, for all smaller ones the process ends. -/
theorem C145_default_violation (io : FileIO PayR F) (dbl : Str → Option ℝ) (order : List Nat)
    (wd : World PayR F) (v d : Str) (w h : Nat)
    (ho : order.Perm (List.range 4)) (im : Image ℝ) (f : Nat → Nat → ℝ) (hw : w < 2 ^ 29) (hh : h < 2 ^ 29)
    (hv : wd.ws.retrieveAny v = some (.atom tyDouble (.real im))) (s : im.Shows w h f) :
    (27 < w ∧ 27 < h → ∃ out : List (Image ℝ), Stored wd (octaveCmd io dbl order wd ['$' :: v, '$' :: d]) d
        (.cont .vector tyDouble (out.map fun im => .atom tyDouble (.real im))) ∧ out.length = 4) ∧
    (w ≤ 27 ∨ h ≤ 27 →
      octaveCmd io dbl order wd ['$' :: v, '$' :: d] = .ok ⟨wd, .terminated, none⟩) := by
  have ha : AsksOctave dbl [] 5 1.6 (Real.sqrt 2) := ⟨rfl, rfl, rfl⟩
  constructor
  · rintro ⟨h1, h2⟩
    obtain ⟨out, e, el, -⟩ := C145_command_partial io dbl order wd v d [] 5 1.6 (Real.sqrt 2) ha (by norm_num)
      (Real.sqrt_nonneg 2) (by omega) (by omega) w h
      (fun i hi => by have := default_windows i hi; exact ⟨by omega, by omega⟩) (by omega) (by omega)
      (lt_of_le_of_lt (Nat.mul_le_mul (show 4 * w + 1 ≤ 2 ^ 31 by omega) (show 4 * h + 1 ≤ 2 ^ 31 by omega))
        (by norm_num)) ho f (.inl ⟨im, hv, s⟩)
    exact ⟨out, e, el⟩
  · intro hsmall
    refine C145_small_violation io dbl order wd v d [] 5 1.6 (Real.sqrt 2) ha (by norm_num)
      (Real.sqrt_nonneg 2) (by omega) (by omega) w h ⟨4, by omega, ?_⟩
      (fun i hi => by have := default_windows i hi; omega) hw hh ho im f hv s
    rintro ⟨h1, h2⟩
    rw [default_last_window] at h1 h2
    omega

/-- A concrete case: a 30 × 40 image. -/
example : ∃ (wd : World PayR Unit) (im : Image ℝ) (f : Nat → Nat → ℝ),
    wd.ws.retrieveAny "v".toList = some (.atom tyDouble (.real im)) ∧ im.Shows 30 40 f :=
  ⟨⟨⟨[("v".toList, .atom tyDouble (.real (Image.ofSizes 1 [30, 40])))]⟩, ()⟩, _, _, rfl,
    ofSizes_shows 1 (by decide) (by decide) (by decide)⟩

/-- Fewer than two arguments, a second argument that is not a variable, an image of truth values or of
integers other than bytes: nothing changes. A number of levels without digits, or a sigma or k that is not a
number: the command fails. -/
theorem C145_rejected (io : FileIO PayR F) (dbl : Str → Option ℝ) (order : List Nat)
    (wd : World PayR F) :
    (∀ args, args.length < 2 → Nothing wd (octaveCmd io dbl order wd args)) ∧
    (∀ a b more, (∀ d, b ≠ '$' :: d) → Nothing wd (octaveCmd io dbl order wd (a :: b :: more))) ∧
    (∀ a d x more, (∀ c ∈ x, ¬ c.isDigit) → Failed wd (octaveCmd io dbl order wd (a :: ('$' :: d) :: x :: more))) ∧
    (∀ a d x y more, (∀ s, Means y s → dbl s = none) →
      Failed wd (octaveCmd io dbl order wd (a :: ('$' :: d) :: x :: y :: more))) ∧
    (∀ a d x y z more, (∀ s, Means z s → dbl s = none) →
      Failed wd (octaveCmd io dbl order wd (a :: ('$' :: d) :: x :: y :: z :: more))) ∧
    (∀ v d params levels sigma k n p, AsksOctave dbl params levels sigma k → n ≠ .double → n ≠ .uchar →
      wd.ws.retrieveAny v = some (.atom (.image (.num n)) p) →
      Nothing wd (octaveCmd io dbl order wd (('$' :: v) :: ('$' :: d) :: params))) := by
  have hclean : ∀ y, (∀ s, Means y s → dbl s = none) → dbl (sanitize y) = none := fun y h => h _ (means_iff.2 rfl)
  refine ⟨?_, ?_, ?_, ?_, ?_, ?_⟩
  · intro args h
    match args, h with
    | [], _ => rfl
    | [_], _ => rfl
  · intro a b more hb
    have : isVar b = false := by
      cases b with
      | nil => rfl
      | cons c d =>
        by_cases hc : c = '$'
        · exact (hb d (by rw [hc])).elim
        · simp [isVar, hc]
    unfold Nothing octaveCmd
    dsimp only
    rw [if_neg (by simp [this])]
    rfl
  · intro a d x more hx
    unfold Failed octaveCmd
    dsimp only
    rw [if_pos (show isVar ('$' :: d) = true from rfl), show octaveLevels (x :: more) = none from parseSize_nodigit hx]
    rfl
  · intro a d x y more hy
    unfold Failed octaveCmd
    dsimp only
    rw [if_pos (show isVar ('$' :: d) = true from rfl), show octaveSigma dbl (x :: y :: more) = none from hclean y hy]
    cases octaveLevels (x :: y :: more) <;> rfl
  · intro a d x y z more hz
    unfold Failed octaveCmd
    dsimp only
    rw [if_pos (show isVar ('$' :: d) = true from rfl), show octaveK dbl (x :: y :: z :: more) = none from hclean z hz]
    cases octaveLevels (x :: y :: z :: more) <;> cases octaveSigma dbl (x :: y :: z :: more) <;> rfl
  · intro v d params levels sigma k n p ha h1 h2 hv
    unfold Nothing
    rw [octaveCmd_act io dbl order wd v d params levels sigma k ha _ hv (by cases n <;> rfl)]
    cases n <;> first | rfl | exact absurd rfl h1 | exact absurd rfl h2

/-- Violation: although the library has an octave for colour images, the command gives a message for every
colour image and stores nothing. -/
theorem C145_colour_violation (io : FileIO PayR F) (dbl : Str → Option ℝ) (order : List Nat) (wd : World PayR F)
    (v d : Str) (params : List Str) (levels : Nat) (sigma k : ℝ) (ha : AsksOctave dbl params levels sigma k) :
    (∀ (im : Image RGB), im.WF → 0 < im.size.prod → wd.ws.retrieveAny v = some (.atom tyRgb (.rgb im)) →
      Nothing wd (octaveCmd io dbl order wd (('$' :: v) :: ('$' :: d) :: params))) ∧
    ∀ im : Image (Px3 ℝ), wd.ws.retrieveAny v = some (.atom tyHsv (.tri im)) ∨
        wd.ws.retrieveAny v = some (.atom tyRgbDouble (.tri im)) →
      Nothing wd (octaveCmd io dbl order wd (('$' :: v) :: ('$' :: d) :: params)) := by
  constructor
  · intro im wf h0 hv
    have e1 : im2double im = .ok ⟨im.size, im.data.map fun p => ⟨real8 p.c0, real8 p.c1, real8 p.c2⟩⟩ :=
      convertAll_ok (fun p : RGB => (⟨real8 p.c0, real8 p.c1, real8 p.c2⟩ : Px3 ℝ)) wf h0 fun v _ => rfl
    unfold Nothing
    rw [octaveCmd_act io dbl order wd v d params levels sigma k ha _ hv rfl]
    simp only [octaveVal, tyRgb, e1]
    rfl
  · rintro im (hv | hv) <;>
    · unfold Nothing
      rw [octaveCmd_act io dbl order wd v d params levels sigma k ha _ hv rfl]
      rfl

/-- Such an image: one red pixel. -/
example : ∃ (wd : World PayR Unit) (im : Image RGB), im.WF ∧ 0 < im.size.prod ∧
    wd.ws.retrieveAny "v".toList = some (.atom tyRgb (.rgb im)) :=
  ⟨⟨⟨[("v".toList, .atom tyRgb (.rgb ⟨[1, 1], [⟨255, 0, 0⟩]⟩))]⟩, ()⟩, ⟨[1, 1], [⟨255, 0, 0⟩]⟩,
    ⟨rfl, by decide, by decide⟩, by decide, rfl⟩

/-! ## C146 -/

/-- `to_complex $v $d` on an image of floating-point pixels stores complex numbers with these real parts and
zero imaginary parts, whatever the policy word; a complex image is stored unchanged. -/
theorem C146_to_complex (io : FileIO PayR F) (ext : Val PayR → Act (Val PayR)) (more : List Str) :
    (∀ im : Image ℝ, im.WF → 0 < im.size.prod →
      ∃ out : Image ℂ, Gives (toComplexCmd io ext) more (.atom tyDouble (.real im)) (.atom tyComplex (.cplx out)) ∧
        out.WF ∧ out.size = im.size ∧
        ∀ idx v, im.at' idx = .ok v → ∃ z, out.at' idx = .ok z ∧ z.re = v ∧ z.im = 0) ∧
    (∀ im : Image ℂ, Gives (toComplexCmd io ext) more (.atom tyComplex (.cplx im)) (.atom tyComplex (.cplx im))) := by
  constructor
  · intro im wf h0
    refine ⟨⟨im.size, im.data.map fun v : ℝ => (⟨v, 0⟩ : ℂ)⟩,
      gives_of (by simp) (fun p q policy => ⟨_, rfl, ?_⟩) rfl rfl, wf.map _, rfl,
      fun idx v h => ⟨_, wf.map_at _ h, rfl, rfl⟩⟩
    rw [dispatchPolicy_same, show toComplexVal ext (.atom tyDouble (.real im)) =
      Act.ofImage tyComplex .cplx (toComplex im) from rfl, toComplex, imageFn_ok _ wf h0]
    rfl
  · intro im
    refine gives_of (by simp) (fun p q policy => ⟨_, rfl, ?_⟩) rfl rfl
    rw [dispatchPolicy_same]
    rfl

/-- Truth values are refused, as image and in containers. -/
theorem C146_to_complex_bool (io : FileIO PayR F) (ext : Val PayR → Act (Val PayR)) (more : List Str) :
    (∀ p, Refuses (toComplexCmd io ext) more (.atom (.image (.num .bool)) p)) ∧
    (∀ k items, Refuses (toComplexCmd io ext) more (.cont k (.num .bool) items)) := by
  constructor
  · intro p
    exact refuses_of (by simp) (fun a b policy => ⟨_, rfl, by rw [dispatchPolicy_same]; rfl⟩) rfl
  · intro k items
    exact refuses_of (by simp) (fun a b policy => ⟨_, rfl, by rw [dispatchPolicy_same]; rfl⟩) rfl

theorem realItems_map (l : List (Image ℝ)) :
    realItems (l.map fun im => .atom tyDouble (.real im)) = some l := by
  induction l with
  | nil => rfl
  | cons a l ih =>
    rw [List.map_cons, show realItems (.atom tyDouble (.real a) :: l.map fun im => .atom tyDouble (.real im)) =
      (realItems (l.map fun im => .atom tyDouble (.real im))).map (a :: ·) from rfl, ih]
    rfl

/-- `dct3 $v $d` on a vector or deque of equally sized images of floating-point pixels stores a vector with
the planes of the three-dimensional cosine transform. -/
theorem C146_dct3 (io : FileIO PayR F) (ext : Val PayR → Act (Val PayR)) (more : List Str) (k : Kind)
    (hk : k = .vector ∨ k = .deque) (l : List (Image ℝ)) (w h : Nat) (g : Nat → Nat → Nat → ℝ)
    (s : StackShows l w h g) :
    ∃ out, Gives (dct3Cmd io ext) more (.cont k tyDouble (l.map fun im => .atom tyDouble (.real im)))
        (.cont .vector tyDouble (out.map fun im => .atom tyDouble (.real im))) ∧
      out.length = l.length ∧ StackShows out w h (dctVal w h l.length g) := by
  obtain ⟨out, e, hl, so⟩ := stack_loop (l := l) (dct3OnePlane l) fun z hz => dct3OnePlane_shows s hz
  have e' : dct3 l = .ok out := e
  refine ⟨out, ?_, hl, so⟩
  rcases hk with rfl | rfl
  · refine gives_of (by simp) (fun p q policy => ⟨_, rfl, ?_⟩) rfl rfl
    rw [dispatchPolicy_same, show dct3Val ext (.cont .vector tyDouble (l.map fun im => .atom tyDouble (.real im))) =
      match realItems (l.map fun im => .atom tyDouble (.real im)) with
      | some l => .ofRes (do .ok (imageVector (← dct3 l)))
      | none => _ from rfl, realItems_map]
    dsimp only
    rw [e']
    rfl
  · refine gives_of (by simp) (fun p q policy => ⟨_, rfl, ?_⟩) rfl rfl
    rw [dispatchPolicy_same, show dct3Val ext (.cont .deque tyDouble (l.map fun im => .atom tyDouble (.real im))) =
      match realItems (l.map fun im => .atom tyDouble (.real im)) with
      | some l => .ofRes (do .ok (imageVector (← dct3 l)))
      | none => _ from rfl, realItems_map]
    dsimp only
    rw [e']
    rfl

/-- `dct3` reads its planes as two-dimensional: if the first one has more dimensions the command fails and
nothing is stored. -/
theorem C146_dct3_solid (io : FileIO PayR F) (ext : Val PayR → Act (Val PayR)) (more : List Str) (im : Image ℝ)
    (rest : List (Image ℝ)) (w h d : Nat) (ds : List Nat) (hs : im.size = w :: h :: d :: ds) (hw : 0 < w) (hh : 0 < h) :
    Refuses (dct3Cmd io ext) more
      (.cont .vector tyDouble ((im :: rest).map fun im => .atom tyDouble (.real im))) := by
  obtain ⟨w, rfl⟩ : ∃ n, w = n + 1 := ⟨w - 1, by omega⟩
  obtain ⟨h, rfl⟩ : ∃ n, h = n + 1 := ⟨h - 1, by omega⟩
  have hat : im.at2 0 0 = .throw .runtime := by
    unfold Image.at2 Image.at' Image.checkBoundary
    rw [if_pos (by simp [hs])]; rfl
  have hwd : im.width = w + 1 := by simp [Image.width, hs]
  have hht : im.height = h + 1 := by simp [Image.height, hs]
  have e1 : dct3OnePlane (im :: rest) 0 = .throw .runtime := by
    unfold dct3OnePlane dct3OnePlaneOrd
    simp only [vget, List.getElem?_cons_zero, Res.ok_bind, hwd, hht]
    unfold pixFor
    rw [show iterYX (w + 1) (h + 1) = (0, 0) :: (iterYX (w + 1) (h + 1)).tail from by
      unfold iterYX; simp [List.range_succ_eq_map]]
    rw [loop]
    simp only [forUp, List.length_cons, List.range_succ_eq_map, loop, List.getElem?_cons_zero, Res.ok_bind, hwd, hht,
      hat, Res.throw_bind]
  have e : dct3 (im :: rest) = .throw .runtime := by
    unfold dct3 forUp
    rw [List.length_cons, List.range_succ_eq_map, loop, e1]
    rfl
  refine refuses_of (by simp) (fun p q policy => ⟨_, rfl, ?_⟩) rfl
  rw [dispatchPolicy_same, show dct3Val ext (.cont .vector tyDouble ((im :: rest).map fun im => .atom tyDouble (.real im))) =
    match realItems ((im :: rest).map fun im => .atom tyDouble (.real im)) with
    | some l => .ofRes (do .ok (imageVector (← dct3 l)))
    | none => _ from rfl, realItems_map]
  dsimp only
  rw [e]
  rfl

example : Refuses (F := Unit) (dct3Cmd ⟨fun _ _ => none, fun _ _ _ => none⟩ fun _ => .threw) []
    (.cont .vector tyDouble [.atom tyDouble (.real ⟨[1, 1, 1], [5]⟩)]) :=
  C146_dct3_solid _ _ [] ⟨[1, 1, 1], [5]⟩ [] 1 1 1 [] rfl (by decide) (by decide)

/-- Lists, and containers of integer images, are refused. -/
theorem C146_dct3_refused (io : FileIO PayR F) (ext : Val PayR → Act (Val PayR)) (more : List Str) :
    (∀ t items, isMasterImage t = true → Refuses (dct3Cmd io ext) more (.cont .list t items)) ∧
    (∀ k n items, k = .vector ∨ k = .deque → n ≠ .double →
      Refuses (dct3Cmd io ext) more (.cont k (.image (.num n)) items)) := by
  constructor
  · intro t items ht
    exact refuses_of (by simp) (fun a b policy => ⟨_, rfl, by rw [dispatchPolicy_same]; rfl⟩) (by
      show isMasterImage t = true
      exact ht)
  · intro k n items hk hn
    rcases hk with rfl | rfl <;>
      exact refuses_of (by simp) (fun a b policy => ⟨_, rfl, by
        rw [dispatchPolicy_same]
        cases n <;> first | rfl | exact absurd rfl hn⟩) (by cases n <;> rfl)

/-- A concrete case: one image of 2 × 1 pixels. -/
example : ∃ l g, l.length = 1 ∧ StackShows l 2 1 g :=
  ⟨[Image.ofSizes 1 [2, 1]], fun _ _ _ => 1, rfl, fun z hz => ⟨_, by
    have : z = 0 := by simpa using hz
    subst this; rfl, ofSizes_shows 1 (by decide) (by decide) (by decide)⟩⟩

/-- `gaussian_figure_2d $d width height cx cy sigma` stores an image of this size whose pixels are the bell
curve around `(cx, cy)`. -/
theorem C146_gaussian (io : FileIO PayR F) (dbl : Str → Option ℝ) (wd : World PayR F) (d a : Str)
    (more : List Str) (w h cx cy : Nat) (hw : w < 2 ^ 64) (hh : h < 2 ^ 64) (hf : w * h < 2 ^ 64) (hw0 : 0 < w)
    (hh0 : 0 < h) (hx : cx < 2 ^ 64) (hy : cy < 2 ^ 64) (sigma : ℝ) (ha : Reads dbl a sigma) :
    ∃ out, Stored wd (gaussianCmd io dbl wd (('$' :: d) :: Nat.toDigits 10 w :: Nat.toDigits 10 h ::
        Nat.toDigits 10 cx :: Nat.toDigits 10 cy :: a :: more)) d (.atom tyDouble (.real out)) ∧
      out.Shows w h (fun x y => Filter.bell sigma ((x : ℝ) - cx) * Filter.bell sigma ((y : ℝ) - cy)) := by
  obtain ⟨⟨out, e, so⟩, -⟩ := Filter.C108_figure2D w h cx cy hw hh hf hw0 hh0 sigma sigma
  refine ⟨out, stored_put _ _ _ _ ?_, so⟩
  unfold gaussianCmd
  dsimp only
  rw [show parseSize (Nat.toDigits 10 w) = some w from parseSize_toStr hw,
    show parseSize (Nat.toDigits 10 h) = some h from parseSize_toStr hh,
    show parseSize (Nat.toDigits 10 cx) = some cx from parseSize_toStr hx,
    show parseSize (Nat.toDigits 10 cy) = some cy from parseSize_toStr hy, reads_clean ha]
  dsimp only
  rw [e]
  rfl

/-- Fewer than six arguments do nothing. A policy word before the others, a number without digits or a sigma
that is not a number make the command fail; nothing changes. -/
theorem C146_gaussian_rejected (io : FileIO PayR F) (dbl : Str → Option ℝ) (wd : World PayR F) (args : List Str) :
    (args.length < 6 → Nothing wd (gaussianCmd io dbl wd args)) ∧
    (∀ o n more, args = o :: n ++ more → n.length = 4 → more ≠ [] → (∃ a ∈ n, ∀ c ∈ a, ¬ c.isDigit) →
      Failed wd (gaussianCmd io dbl wd args)) ∧
    (∀ p d more, args = p :: ('$' :: d) :: more → PolicyWord p → 4 ≤ more.length →
      Failed wd (gaussianCmd io dbl wd args)) ∧
    (∀ o n a more, args = o :: n ++ a :: more → n.length = 4 → (∀ s, Means a s → dbl s = none) →
      Failed wd (gaussianCmd io dbl wd args)) := by
  have six : ∀ o a b c e f more, (∀ r1 r2 r3 r4 r5, ¬ (parseSize a = some r1 ∧ parseSize b = some r2 ∧
      parseSize c = some r3 ∧ parseSize e = some r4 ∧ dbl (sanitize f) = some r5)) →
      Failed wd (gaussianCmd io dbl wd (o :: a :: b :: c :: e :: f :: more)) := by
    intro o a b c e f more hno
    unfold Failed gaussianCmd
    dsimp only
    split
    · rename_i e1 e2 e3 e4 e5
      exact (hno _ _ _ _ _ ⟨e1, e2, e3, e4, e5⟩).elim
    · rfl
  refine ⟨?_, ?_, ?_, ?_⟩
  · intro h
    unfold Nothing gaussianCmd
    match args, h with
    | [], _ => rfl
    | [_], _ => rfl
    | [_, _], _ => rfl
    | [_, _, _], _ => rfl
    | [_, _, _, _], _ => rfl
    | [_, _, _, _, _], _ => rfl
  · rintro o n more rfl hn hm ⟨x, hx, hbad⟩
    have hx' := parseSize_nodigit hbad
    match n, hn with
    | [a, b, c, e], _ =>
      match more, hm with
      | f :: more, _ =>
        refine six o a b c e f more ?_
        rintro r1 r2 r3 r4 r5 ⟨e1, e2, e3, e4, -⟩
        simp only [List.mem_cons, List.not_mem_nil, or_false] at hx
        rcases hx with rfl | rfl | rfl | rfl <;> simp_all
  · rintro p d more rfl hp hm
    match more, hm with
    | b :: c :: e :: f :: more, _ =>
      refine six p ('$' :: d) b c e f more ?_
      rintro r1 r2 r3 r4 r5 ⟨e1, -⟩
      have hs : parseSize ('$' :: d) = none := by
        have hd : ∃ d', sanitize ('$' :: d) = '$' :: d' := by
          unfold sanitize
          rw [List.reverse_cons, List.dropWhile_append]
          split
          · exact ⟨[], rfl⟩
          · rw [List.reverse_append]
            exact ⟨_, rfl⟩
        obtain ⟨d', hd⟩ := hd
        unfold parseSize
        rw [hd]
        rfl
      rw [hs] at e1
      cases e1
  · rintro o n a more rfl hn hbad
    have hx' : dbl (sanitize a) = none := hbad _ (means_iff.2 rfl)
    match n, hn with
    | [x, b, c, e], _ =>
      refine six o x b c e a more ?_
      rintro r1 r2 r3 r4 r5 ⟨-, -, -, -, e5⟩
      rw [hx'] at e5
      cases e5

/-- All windows have length 5 when the standard deviations are all 1. -/
theorem windows_one (i : Nat) : Filter.WindowFits 12 10 (1 * 1 ^ i) := by
  rw [one_pow, mul_one, Filter.WindowFits, Filter.autoSize_one]; decide

example := C145_octave_partial _ 12 10 _ (picture_shows 12 10 fun x y => ((x * y : Nat) : ℝ)) 1 1 (by norm_num)
  (by norm_num) 5 (by decide) (by decide) (fun i _ => windows_one i) (by decide) (by decide) (by decide)

-- Two levels with the standard deviations 1 and 2.
example : ∃ out, octave [0] (picture 12 10 fun x y => ((x * y : Nat) : ℝ)) 2 1 2 = .ok out ∧ ∃ g, StackShows out 12 10 g ∧
    ∀ x y, x < 12 → y < 10 → ∑ i ∈ Finset.range out.length, g i x y =
      Filter.smoothed 12 10 (fun x y => ((x * y : Nat) : ℝ)) 1 x y -
        Filter.smoothed 12 10 (fun x y => ((x * y : Nat) : ℝ)) (1 * 2 ^ (2 - 1)) x y := by
  have s := picture_shows 12 10 fun x y => ((x * y : Nat) : ℝ)
  have hfit : ∀ i < 2, Filter.WindowFits 12 10 ((1 : ℝ) * 2 ^ i) := by
    intro i hi
    obtain rfl | rfl : i = 0 ∨ i = 1 := by omega
    · rw [pow_zero, mul_one, Filter.WindowFits, Filter.autoSize_one]; decide
    · rw [pow_one, one_mul, Filter.WindowFits, Filter.autoSize_two]; decide
  obtain ⟨out, -, hg, e⟩ := C145_octave_partial _ 12 10 _ s 1 2 (by norm_num) (by norm_num) 2 (by decide) (by decide) hfit
    (by decide) (by decide) (by decide)
  exact ⟨out, e [0] (.refl _), _, hg, C145_sum _ 12 10 _ s 1 2 (by norm_num) (by norm_num) 2 (by decide) (by decide) hfit
    (by decide) (by decide) (by decide) [0] (.refl _) out (e [0] (.refl _)) _ hg⟩

example (im : Image ℝ) := C145_few [] im 1 (by decide) 1.6 2

example (io : FileIO PayR F) (ext : Val PayR → Act (Val PayR)) := C146_dct3 io ext [] .deque (.inr rfl) _ 3 2 _ stack_shows

example (io : FileIO PayR F) (wd : World PayR F) := C146_gaussian io (fun _ => some 2) wd ['d'] ['2'] [] 30 20 15 10
  (by decide) (by decide) (by decide) (by decide) (by decide) (by decide) (by decide) 2
  ⟨['2'], means_iff.2 (by decide +kernel), rfl⟩

end TinyDIP.Props
