import Verif.Lemmas.Samples
import Verif.Lemmas.Volume
import Mathlib.Data.List.Forall2

/-!
# Property C123: volumetric images
-/

namespace TinyDIP.Props

open TinyDIP Image

variable {α β : Type}

/-- Reading outside the volume throws `out_of_range`; writing there too. Inside, a written voxel reads
back as written and no other voxel changes. -/
theorem C123_access (v : Vol α) (w h d : Nat) (f : Nat → Nat → Nat → α) (s : v.Holds w h d f) (x y z : Nat)
    (a : α) :
    (¬ (x < w ∧ y < h ∧ z < d) → v.at' x y z = .throw .outOfRange ∧
      v.setAt x y z a = .throw .outOfRange) ∧
    (x < w ∧ y < h ∧ z < d → ∃ v', v.setAt x y z a = .ok v' ∧
      v'.Holds w h d (fun x' y' z' => if x' = x ∧ y' = y ∧ z' = z then a else f x' y' z')) := by
  constructor
  · intro hn
    have hc : v.checkBoundary x y z = .throw .outOfRange := by
      unfold Vol.checkBoundary
      rw [s.w_eq, s.h_eq, s.d_eq]
      split_ifs with h1 h2 h3
      · rfl
      · rfl
      · rfl
      · exact absurd ⟨by omega, by omega, by omega⟩ hn
    exact ⟨by rw [Vol.at', hc, Res.throw_bind], by rw [Vol.setAt, hc, Res.throw_bind]⟩
  · rintro ⟨hx, hy, hz⟩
    have hlt : x + w * (y + h * z) < v.data.length := by rw [s.len]; exact Vol.pos_lt hx hy hz
    refine ⟨⟨v.width, v.height, v.depth, v.data.set (x + w * (y + h * z)) a⟩, ?_, ?_⟩
    · rw [Vol.setAt, Vol.checkBoundary, s.w_eq, s.h_eq, s.d_eq, if_neg (by omega), if_neg (by omega),
        if_neg (by omega), Res.ok_bind, Vol.position_eq s.fits hx hy hz]
      simp [vset, hlt]
    · refine Vol.Holds.of_data s.w_eq s.h_eq s.d_eq (by simpa using s.len) s.fits s.small ?_
      intro x' y' z' hx' hy' hz'
      simp only
      by_cases he : x' = x ∧ y' = y ∧ z' = z
      · obtain ⟨rfl, rfl, rfl⟩ := he
        simp [hlt]
      · rw [if_neg he, List.getElem?_set_ne, s.data hx' hy' hz']
        intro e
        obtain ⟨h1, h2, h3⟩ := Vol.pos_inj hx hy hz hx' hy' hz' e
        exact he ⟨h1.symm, h2.symm, h3.symm⟩

/-- `VolumetricImage(data, w, h, d)` rejects data of the wrong length and otherwise holds the data layer by layer, row
by row; `VolumetricImage(w, h, d, value)` holds the value everywhere. Missing: the constructor with sizes only, see
`C123_construct_violation`. -/
theorem C123_construct_partial (input : List α) (w h d : Nat) (a : α) (hs : w < 2 ^ 31 ∧ h < 2 ^ 31 ∧ d < 2 ^ 31)
    (hp : w * h * d < 2 ^ 64) :
    (input.length ≠ w * h * d → Vol.ofData input w h d = .throw .runtime) ∧
    (∀ g : Nat → Nat → Nat → α, input.length = w * h * d →
      (∀ x y z, x < w → y < h → z < d → input[z * (w * h) + y * w + x]? = some (g x y z)) →
      ∃ v, Vol.ofData input w h d = .ok v ∧ v.Holds w h d g) ∧
    (Vol.ofInts w h d a).Holds w h d (fun _ _ _ => a) := by
  have hv : Vol.volume w h d = w * h * d := by rw [Vol.volume_mod, Nat.mod_eq_of_lt hp]
  have small : w < 2 ^ 64 ∧ h < 2 ^ 64 ∧ d < 2 ^ 64 := ⟨by omega, by omega, by omega⟩
  refine ⟨fun hn => by rw [Vol.ofData, hv, if_pos hn], fun g hl hg => ?_, ?_⟩
  · refine ⟨⟨w, h, d, input⟩, by rw [Vol.ofData, hv, if_neg (by simpa using hl)], ?_⟩
    refine Vol.Holds.of_data rfl rfl rfl hl hp small fun x y z hx hy hz => ?_
    rw [← hg x y z hx hy hz]
    congr 1
    ring
  · have e : ∀ n : Nat, n < 2 ^ 64 → ((n : Int) % (W : Int)).toNat = n := by
      intro n hn
      rw [W, Int.emod_eq_of_lt (by omega) (by exact_mod_cast hn), Int.toNat_natCast]
    simp only [Vol.ofInts, e w small.1, e h small.2.1, e d small.2.2, hv]
    refine Vol.Holds.of_data rfl rfl rfl (by simp) hp small fun x y z hx hy hz => ?_
    simp [Vol.pos_lt hx hy hz]

example := C123_access (Vol.ofInts 2 1 2 7) 2 1 2 _ (C123_construct_partial [] 2 1 2 (7 : Nat) (by decide) (by decide)).2.2 1 0 1 9

example := C123_construct_partial [1, 2, 3, 4, 5, 6] 1 2 3 (7 : Nat) (by decide) (by decide)

/-- Violation: `VolumetricImage(width, height, depth)` reads its own uninitialised members. -/
theorem C123_construct_violation (zero : α) (w h d : Nat) : Vol.ofSizes zero w h d = .ub := rfl

/-- A volume made of pictures: layer `z` is picture `z`. Full statement: for pictures of different sizes
the constructor reports an error; it crops larger ones, and an empty vector is undefined behaviour, see the
violations. -/
theorem C123_stack_partial (zero : α) (ims : List (Image α)) (w h : Nat) (f : Nat → Nat → Nat → α)
    (hne : ims ≠ []) (hi : ∀ (z : Nat) (im : Image α), ims[z]? = some im → im.Shows w h (fun x y => f x y z))
    (hp : w * h * ims.length < 2 ^ 64) (hl : ims.length < 2 ^ 64) :
    ∃ v, Vol.ofImages zero ims = .ok v ∧ v.Holds w h ims.length f := by
  obtain ⟨i0, rest, rfl⟩ := List.exists_cons_of_ne_nil hne
  have s0 := hi 0 i0 (by simp)
  set n := (i0 :: rest).length with hn
  have hv : Vol.volume w h n = w * h * n := by rw [Vol.volume_mod, Nat.mod_eq_of_lt hp]
  obtain ⟨dat, e, hlen, hval, -⟩ := loop_put (n := w * h * n)
    (fun t : Nat × Nat × Nat => t.2.2 + w * (t.2.1 + h * t.1)) (fun t => f t.2.2 t.2.1 t.1)
    (fun data (t : Nat × Nat × Nat) => do
        let im ← vget (i0 :: rest) t.1
        let v ← im.at2 t.2.2 t.2.1
        vset data (Vol.position w h t.2.2 t.2.1 t.1) v)
    ((List.range n).flatMap fun z => (List.range h).flatMap fun y => (List.range w).map fun x => (z, y, x))
    (by
      rintro ⟨z, y, x⟩ hm dd hdd
      simp only [List.mem_flatMap, List.mem_range, List.mem_map, Prod.mk.injEq] at hm
      obtain ⟨z, hz, y, hy, x, hx, rfl, rfl, rfl⟩ := hm
      have hz' : z < (i0 :: rest).length := hz
      have s := hi z _ (List.getElem?_eq_getElem hz')
      rw [vget_eq_ok hz', Res.ok_bind]
      have hp' : x + w * (y + h * z) < dd.length := by rw [hdd]; exact Vol.pos_lt hx hy hz
      simp only [s.px x y hx hy, Res.ok_bind, Vol.position_eq hp hx hy hz, vset, hp', if_true])
    (by
      rintro ⟨z, y, x⟩ hm
      simp only [List.mem_flatMap, List.mem_range, List.mem_map, Prod.mk.injEq] at hm
      obtain ⟨z, hz, y, hy, x, hx, rfl, rfl, rfl⟩ := hm
      exact Vol.pos_lt hx hy hz)
    (by
      rintro ⟨z, y, x⟩ hm ⟨z', y', x'⟩ hm' e
      simp only [List.mem_flatMap, List.mem_range, List.mem_map, Prod.mk.injEq] at hm hm'
      obtain ⟨z, hz, y, hy, x, hx, rfl, rfl, rfl⟩ := hm
      obtain ⟨z', hz', y', hy', x', hx', rfl, rfl, rfl⟩ := hm'
      obtain ⟨rfl, rfl, rfl⟩ := Vol.pos_inj hx hy hz hx' hy' hz' e
      rfl)
    (List.replicate (w * h * n) zero) (by simp)
  refine ⟨⟨w, h, n, dat⟩, ?_, ?_⟩
  · rw [Vol.ofImages, show vget (i0 :: rest) 0 = .ok i0 from rfl, Res.ok_bind]
    simp only [s0.width, s0.height, ← hn, hv]
    rw [← loop_flatMap] at e
    simp only [← loop_flatMap, ← loop_map] at e
    simp only [forUp]
    rw [e, Res.ok_bind]
  · refine Vol.Holds.of_data rfl rfl rfl hlen hp ⟨s0.w_lt, s0.h_lt, hl⟩ fun x y z hx hy hz => ?_
    refine hval (z, y, x) ?_
    simp only [List.mem_flatMap, List.mem_range, List.mem_map, Prod.mk.injEq]
    exact ⟨z, hz, y, hy, x, hx, rfl, rfl, rfl⟩

example := C123_stack_partial 0 [picture 2 1 fun x _ => x, picture 2 1 fun x _ => x + 1] 2 1 (fun x _ z => x + z) (by simp)
  (fun z im h => by
    match z, h with
    | 0, h => cases h; exact picture_shows 2 1 fun x _ => x
    | 1, h => cases h; exact picture_shows 2 1 fun x _ => x + 1) (by decide) (by decide)

/-- Violations: an empty vector of pictures is undefined behaviour; of a later picture that is larger
only a part is kept, without an error. -/
theorem C123_stack_violation (zero : α) : Vol.ofImages zero ([] : List (Image α)) = .ub ∧
    Vol.ofImages 0 [(⟨[1, 1], [5]⟩ : Image Nat), ⟨[2, 1], [6, 7]⟩] = .ok ⟨1, 1, 2, [5, 6]⟩ :=
  ⟨rfl, by decide⟩

/-- Any two-dimensional picture that is narrower or lower than the first one (which has at least one
pixel) is reported as `out_of_range`, wherever it stands. -/
theorem C123_stack_smaller (zero : α) (ims : List (Image α)) (w h : Nat) (hw : 0 < w) (hh : 0 < h)
    (hf : ∃ im0 f, ims[0]? = some im0 ∧ im0.Shows w h f)
    (hi : ∀ im ∈ ims, ∃ w' h' f, im.Shows w' h' f)
    (hp : w * h * ims.length < 2 ^ 64)
    (hs : ∃ im ∈ ims, ∃ w' h' f, im.Shows w' h' f ∧ (w' < w ∨ h' < h)) :
    Vol.ofImages zero ims = .throw .outOfRange := by
  obtain ⟨i0, f0, e0, s0⟩ := hf
  have g0 : vget ims 0 = .ok i0 := by simp [vget, e0]
  have hv : Vol.volume w h ims.length = w * h * ims.length := by
    rw [Vol.volume_mod, Nat.mod_eq_of_lt hp]
  have outside : ∀ (im : Image α) w' h' f x y, im.Shows w' h' f → ¬ (x < w' ∧ y < h') →
      im.at2 x y = .throw .outOfRange := by
    intro im w' h' f x y s hn
    exact at2_oob s.size hn
  rw [Vol.ofImages, g0, Res.ok_bind]
  simp only [s0.width, s0.height, hv]
  rw [Vol.forUp3 (fun data (t : Nat × Nat × Nat) => do
        let im ← vget ims t.1
        let v ← im.at2 t.2.2 t.2.1
        vset data (Vol.position w h t.2.2 t.2.1 t.1) v), Vol.loop_throw (P := fun dd => dd.length = w * h * ims.length) (e := .outOfRange)]
  · rfl
  · simp
  · rintro dd ⟨z, y, x⟩ hm hdd
    simp only [List.mem_flatMap, List.mem_range, List.mem_map, Prod.mk.injEq] at hm
    obtain ⟨z, hz, y, hy, x, hx, rfl, rfl, rfl⟩ := hm
    obtain ⟨w', h', f, s⟩ := hi _ (List.getElem_mem hz)
    simp only [vget_eq_ok hz, Res.ok_bind]
    by_cases hin : x < w' ∧ y < h'
    · left
      have hp' : x + w * (y + h * z) < dd.length := by rw [hdd]; exact Vol.pos_lt hx hy hz
      refine ⟨_, by rw [s.px x y hin.1 hin.2, Res.ok_bind, Vol.position_eq hp hx hy hz, vset,
        if_pos hp'], by simpa using hdd⟩
    · right
      rw [outside _ _ _ _ _ _ s hin, Res.throw_bind]
  · obtain ⟨im, hm, w', h', f, s, hlt⟩ := hs
    obtain ⟨z, hz, rfl⟩ := List.getElem_of_mem hm
    refine ⟨(z, h - 1, w - 1), ?_, ?_⟩
    · simp only [List.mem_flatMap, List.mem_range, List.mem_map, Prod.mk.injEq]
      exact ⟨z, hz, h - 1, by omega, w - 1, by omega, rfl, rfl, rfl⟩
    · intro dd hdd
      simp only [vget_eq_ok hz, Res.ok_bind]
      rw [outside _ _ _ _ _ _ s (by omega), Res.throw_bind]

example : Vol.ofImages 0 [(⟨[2, 1], [6, 7]⟩ : Image Nat), ⟨[1, 1], [5]⟩] = .throw .outOfRange := by decide

/-- `plus(v1, ..., vn)` of volumes of one size is the voxelwise sum. Missing: rejection of different sizes, see
`C123_arithmetic_violation`. -/
theorem C123_plus_partial [AddCommMonoid α] (vs : List (Vol α)) (w h d : Nat)
    (fs : List (Nat → Nat → Nat → α)) (hne : vs ≠ [])
    (hv : List.Forall₂ (fun (v : Vol α) f => v.Holds w h d f) vs fs) :
    ∃ out, Vol.plus (· + ·) vs = .ok out ∧
      out.Holds w h d (fun x y z => (fs.map fun f => f x y z).sum) := by
  induction hv with
  | nil => exact absurd rfl hne
  | @cons v f vs fs s hr ih =>
    cases hr with
    | nil => exact ⟨v, rfl, by simpa using s⟩
    | @cons v2 f2 vs2 fs2 s2 hr2 =>
      obtain ⟨o, e, so⟩ := ih (by simp)
      obtain ⟨out, e2, so2⟩ := Vol.voxelwise2_holds s so (· + ·)
      exact ⟨out, by rw [Vol.plus, e, Res.ok_bind, e2], by simpa using so2⟩

/-- `multiplies`, `divides` and `modulus` of two volumes of one size act voxel by voxel, `negate` on every voxel, and
multiplication by a scalar multiplies every voxel. Missing: rejection of different sizes, see
`C123_arithmetic_violation`. -/
theorem C123_arithmetic_partial (op : α → α → α) (neg : α → α) (a b : Vol α) (w h d : Nat)
    (f g : Nat → Nat → Nat → α) (sa : a.Holds w h d f) (sb : b.Holds w h d g)
    (hs : w < 2 ^ 31 ∧ h < 2 ^ 31 ∧ d < 2 ^ 31) (t : α) :
    (∃ out, Vol.combine op a b = .ok out ∧ out.Holds w h d (fun x y z => op (f x y z) (g x y z))) ∧
    (∃ out, Vol.negate neg a = .ok out ∧ out.Holds w h d (fun x y z => neg (f x y z))) ∧
    (∃ out, Vol.scale op a t = .ok out ∧ out.Holds w h d (fun x y z => op (f x y z) t)) := by
  refine ⟨Vol.voxelwise2_holds sa sb op, Vol.voxelwise_holds sa neg, ?_⟩
  have e : ∀ n : Nat, n < 2 ^ 31 → ((n : Int) + 2 ^ 31) % 2 ^ 32 - 2 ^ 31 = n := by intro n hn; omega
  have := (C123_construct_partial [] w h d t hs sa.fits).2.2
  simp only [Vol.scale, sa.w_eq, sa.h_eq, sa.d_eq, e w hs.1, e h hs.2.1, e d hs.2.2]
  exact Vol.voxelwise2_holds sa this op

/-- Violation: the sizes are not compared. A second volume that is too short is read past its end; one of
another shape with enough voxels is accepted. -/
theorem C123_arithmetic_violation :
    Vol.combine (· * ·) (⟨1, 1, 2, [1, 2]⟩ : Vol Nat) ⟨1, 1, 1, [3]⟩ = .ub ∧
    Vol.combine (· * ·) (⟨1, 1, 2, [1, 2]⟩ : Vol Nat) ⟨2, 1, 1, [3, 4]⟩ = .ok ⟨1, 1, 2, [3, 8]⟩ := by
  decide

/-- Two volumes that hold the same sizes and voxels are equal (`operator==`). -/
theorem C123_equal (a b : Vol α) (w h d : Nat) (f : Nat → Nat → Nat → α) (sa : a.Holds w h d f)
    (sb : b.Holds w h d f) : a = b := by
  obtain ⟨wa, ha, da, la⟩ := a
  obtain ⟨wb, hb, db, lb⟩ := b
  have e1 := sa.w_eq; have e2 := sb.w_eq; have e3 := sa.h_eq; have e4 := sb.h_eq
  have e5 := sa.d_eq; have e6 := sb.d_eq
  simp only at e1 e2 e3 e4 e5 e6
  subst e1 e3 e5
  simp only [Vol.mk.injEq]
  refine ⟨e2.symm, e4.symm, e6.symm, List.ext_getElem? fun i => ?_⟩
  by_cases hi : i < wa * ha * da
  · obtain ⟨is, hb, hr⟩ := rowMajor_surj [wa, ha, da] (n := i) (by simpa [mul_assoc] using hi)
    obtain ⟨x, y, z, rfl⟩ : ∃ x y z, is = [x, y, z] := by
      have := hb.length_eq
      match is, this with
      | [x, y, z], _ => exact ⟨x, y, z, rfl⟩
    obtain ⟨hx, hy, hz⟩ := Vol.inBounds3.mp hb
    rw [← hr, Vol.rowMajor3]
    exact (sa.data hx hy hz).trans (sb.data hx hy hz).symm
  · have h1 := sa.len; have h2 := sb.len
    simp only at h1 h2
    rw [List.getElem?_eq_none (by omega), List.getElem?_eq_none (by omega)]

example : ∃ f, (⟨2, 1, 2, [1, 2, 3, 4]⟩ : Vol Nat).Holds 2 1 2 f ∧ f 1 0 1 = 4 :=
  ⟨fun x _ z => 1 + x + 2 * z, ⟨rfl, rfl, rfl, rfl, by decide, by decide, by
    intro x y z hx hy hz
    obtain rfl : y = 0 := by omega
    obtain rfl | rfl : x = 0 ∨ x = 1 := by omega
    all_goals obtain rfl | rfl : z = 0 ∨ z = 1 := by omega
    all_goals rfl⟩, rfl⟩

example : ∃ v, Vol.ofImages 0 [(⟨[2, 1], [6, 7]⟩ : Image Nat), ⟨[2, 1], [8, 9]⟩] = .ok v ∧
    v.at' 1 0 1 = .ok 9 := ⟨⟨2, 1, 2, [6, 7, 8, 9]⟩, by decide, by decide⟩

example := C123_plus_partial [Vol.ofInts 2 1 2 7, Vol.ofInts 2 1 2 8] 2 1 2 _ (by simp)
  (.cons (C123_construct_partial [] 2 1 2 (7 : Nat) (by decide) (by decide)).2.2
    (.cons (C123_construct_partial [] 2 1 2 (8 : Nat) (by decide) (by decide)).2.2 .nil))

example := C123_arithmetic_partial (· - ·) (fun a => -a) (Vol.ofInts 2 1 2 7) (Vol.ofInts 2 1 2 8) 2 1 2 _ _
  (C123_construct_partial [] 2 1 2 (7 : Int) (by decide) (by decide)).2.2
  (C123_construct_partial [] 2 1 2 (8 : Int) (by decide) (by decide)).2.2 (by decide) 3

end TinyDIP.Props
