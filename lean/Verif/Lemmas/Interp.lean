import Verif.Spec.Interp
import Verif.Lemmas.Geometry
import Mathlib.Tactic.Linarith
import Mathlib.Tactic.Ring
import Mathlib.Tactic.NormNum
import Mathlib.Tactic.FieldSimp
import Mathlib.Tactic.Positivity
import Mathlib.Data.List.Nodup

namespace TinyDIP

open Image

variable {α : Type}

theorem toSize_ok {x : ℝ} (h0 : 0 ≤ x) (h1 : x < 2 ^ 64) : toSize x = .ok ⌊x⌋₊ := by
  rw [toSize, if_pos ⟨by linarith, h1⟩]

theorem toSize_nat {n : Nat} (h : n < 2 ^ 64) : toSize (n : ℝ) = .ok n := by
  rw [toSize_ok (by positivity) (by exact_mod_cast h), Nat.floor_natCast]

section
variable {im : Image α} {w h : Nat} {f : Nat → Nat → α}

theorem real_lt_W {n : Nat} {x : ℝ} (hn : n < 2 ^ 64) (hx : x ≤ (n : ℝ) - 1) : x < 2 ^ 64 := by
  have : (n : ℝ) < 2 ^ 64 := by exact_mod_cast hn
  linarith

theorem floor_lt_of_le {n : Nat} {x : ℝ} (h0 : 0 ≤ x) (hx : x ≤ (n : ℝ) - 1) : ⌊x⌋₊ < n := by
  rw [Nat.floor_lt h0]; linarith

theorem clampNext {n i : Nat} (hi : i < n) (hn : n < 2 ^ 64) :
    (if wadd i 1 ≥ n then i else wadd i 1) = min (i + 1) (n - 1) := by
  rw [wadd_of_lt (by omega)]
  split <;> omega

/-- The value of `bilinear` inside the image. -/
theorem bilinear_inside (cv : Conv α) (zero : α) (s : im.Shows w h f) {x y : ℝ}
    (hx0 : 0 ≤ x) (hx : x ≤ (w : ℝ) - 1) (hy0 : 0 ≤ y) (hy : y ≤ (h : ℝ) - 1) :
    bilinear cv zero im x y = .ok (cv.fromR (
      (cv.toR (f ⌊x⌋₊ ⌊y⌋₊) * (1 - (x - ⌊x⌋₊)) +
        cv.toR (f (min (⌊x⌋₊ + 1) (w - 1)) ⌊y⌋₊) * (x - ⌊x⌋₊)) * (1 - (y - ⌊y⌋₊)) +
      (cv.toR (f ⌊x⌋₊ (min (⌊y⌋₊ + 1) (h - 1))) * (1 - (x - ⌊x⌋₊)) +
        cv.toR (f (min (⌊x⌋₊ + 1) (w - 1)) (min (⌊y⌋₊ + 1) (h - 1))) * (x - ⌊x⌋₊)) *
          (y - ⌊y⌋₊))) := by
  have hi := floor_lt_of_le hx0 hx
  have hj := floor_lt_of_le hy0 hy
  have hi2 : min (⌊x⌋₊ + 1) (w - 1) < w := by omega
  have hj2 : min (⌊y⌋₊ + 1) (h - 1) < h := by omega
  have hno : ¬ (x < 0 ∨ x > (w : ℝ) - 1 ∨ y < 0 ∨ y > (h : ℝ) - 1) := by
    push Not; exact ⟨hx0, hx, hy0, hy⟩
  unfold bilinear
  simp only [s.width, s.height]
  rw [if_neg hno, toSize_ok hx0 (real_lt_W s.w_lt hx), Res.ok_bind,
    toSize_ok hy0 (real_lt_W s.h_lt hy), Res.ok_bind, clampNext hi s.w_lt, clampNext hj s.h_lt,
    s.px _ _ hi hj, Res.ok_bind, s.px _ _ hi2 hj, Res.ok_bind, s.px _ _ hi hj2, Res.ok_bind,
    s.px _ _ hi2 hj2, Res.ok_bind]

theorem bilinear_grid {cv : Conv α} (hcv : cv.Lawful) (zero : α) (s : im.Shows w h f) {i j : Nat}
    (hi : i < w) (hj : j < h) : bilinear cv zero im (i : ℝ) (j : ℝ) = .ok (f i j) := by
  have h1 : ((i : ℝ) : ℝ) ≤ (w : ℝ) - 1 := by
    have : ((i + 1 : Nat) : ℝ) ≤ w := by exact_mod_cast hi
    push_cast at this; linarith
  have h2 : ((j : ℝ) : ℝ) ≤ (h : ℝ) - 1 := by
    have : ((j + 1 : Nat) : ℝ) ≤ h := by exact_mod_cast hj
    push_cast at this; linarith
  rw [bilinear_inside cv zero s (by positivity) h1 (by positivity) h2]
  simp only [Nat.floor_natCast, sub_self, sub_zero, mul_one, mul_zero, add_zero, hcv.exact]

theorem forUp_four {σ : Type} (body : σ → Nat → Res σ) (s : σ) :
    forUp 4 body s = (do
      let s ← body s 0
      let s ← body s 1
      let s ← body s 2
      body s 3) := by
  simp only [forUp, show List.range 4 = [0, 1, 2, 3] from rfl, loop]
  cases body s 0 with
  | throw e => rfl
  | ub => rfl
  | ok s =>
    simp only [Res.ok_bind]
    cases body s 1 with
    | throw e => rfl
    | ub => rfl
    | ok s =>
      simp only [Res.ok_bind]
      cases body s 2 with
      | throw e => rfl
      | ub => rfl
      | ok s =>
        simp only [Res.ok_bind]
        cases body s 3 <;> rfl

/-- The value of `bicubic` inside the image, away from the border. -/
theorem bicubic_inside (cv : Conv α) (zero : α) (s : im.Shows w h f) {x y : ℝ}
    (hx0 : 1 ≤ x) (hx : x < (w : ℝ) - 2) (hy0 : 1 ≤ y) (hy : y < (h : ℝ) - 2) :
    ∃ (i j : Nat) (t u : ℝ), 1 ≤ i ∧ i + 2 < w ∧ 1 ≤ j ∧ j + 2 < h ∧ 0 ≤ t ∧ t < 1 ∧ 0 ≤ u ∧ u < 1 ∧
      x = i + t ∧ y = j + u ∧
      (let K := cubicKernel
       let row := fun v : Nat => 0 + cv.toR (f (i - 1) v) * K (t + 1) + cv.toR (f i v) * K t +
          cv.toR (f (i + 1) v) * K (t - 1) + cv.toR (f (i + 2) v) * K (t - 2)
       bicubic cv zero im x y = .ok (cv.fromR (0 + row (j - 1) * K (u + 1) + row j * K u +
         row (j + 1) * K (u - 1) + row (j + 2) * K (u - 2)))) := by
  have hx0' : 0 ≤ x := by linarith
  have hy0' : 0 ≤ y := by linarith
  have hi1 : 1 ≤ ⌊x⌋₊ := by rw [Nat.one_le_floor_iff]; exact hx0
  have hj1 : 1 ≤ ⌊y⌋₊ := by rw [Nat.one_le_floor_iff]; exact hy0
  have hi2 : ⌊x⌋₊ + 2 < w := by
    have h1 := Nat.floor_le hx0'
    have : ((⌊x⌋₊ + 2 : Nat) : ℝ) < w := by push_cast; linarith
    exact_mod_cast this
  have hj2 : ⌊y⌋₊ + 2 < h := by
    have h1 := Nat.floor_le hy0'
    have : ((⌊y⌋₊ + 2 : Nat) : ℝ) < h := by push_cast; linarith
    exact_mod_cast this
  obtain ⟨i, hi⟩ : ∃ i, ⌊x⌋₊ = i := ⟨_, rfl⟩
  obtain ⟨j, hj⟩ : ∃ j, ⌊y⌋₊ = j := ⟨_, rfl⟩
  rw [hi] at hi1 hi2
  rw [hj] at hj1 hj2
  have fx : (i : ℝ) ≤ x := by rw [← hi]; exact Nat.floor_le hx0'
  have fx' : x < (i : ℝ) + 1 := by rw [← hi]; exact Nat.lt_floor_add_one x
  have fy : (j : ℝ) ≤ y := by rw [← hj]; exact Nat.floor_le hy0'
  have fy' : y < (j : ℝ) + 1 := by rw [← hj]; exact Nat.lt_floor_add_one y
  refine ⟨i, j, x - i, y - j, hi1, hi2, hj1, hj2, by linarith, by linarith, by linarith, by linarith,
    by ring, by ring, ?_⟩
  have hno : ¬ (x < 1 ∨ x ≥ (w : ℝ) - 2 ∨ y < 1 ∨ y ≥ (h : ℝ) - 2) := by
    push Not; exact ⟨hx0, hx, hy0, hy⟩
  have hw := s.w_lt
  have hh := s.h_lt
  have a0 : ∀ n m : Nat, 1 ≤ n → n + 2 < m → m < 2 ^ 64 → wadd (wsub n 1) 0 = n - 1 := by
    intro n m h1 h2 h3; rw [wsub_of_le h1 (by omega), wadd_of_lt (by omega)]; rfl
  have a1 : ∀ n m : Nat, 1 ≤ n → n + 2 < m → m < 2 ^ 64 → wadd (wsub n 1) 1 = n := by
    intro n m h1 h2 h3; rw [wsub_of_le h1 (by omega), wadd_of_lt (by omega)]; omega
  have a2 : ∀ n m : Nat, 1 ≤ n → n + 2 < m → m < 2 ^ 64 → wadd (wsub n 1) 2 = n + 1 := by
    intro n m h1 h2 h3; rw [wsub_of_le h1 (by omega), wadd_of_lt (by omega)]; omega
  have a3 : ∀ n m : Nat, 1 ≤ n → n + 2 < m → m < 2 ^ 64 → wadd (wsub n 1) 3 = n + 2 := by
    intro n m h1 h2 h3; rw [wsub_of_le h1 (by omega), wadd_of_lt (by omega)]; omega
  have ci : ((i - 1 : Nat) : ℝ) = (i : ℝ) - 1 := by rw [Nat.cast_sub hi1]; simp
  have cj : ((j - 1 : Nat) : ℝ) = (j : ℝ) - 1 := by rw [Nat.cast_sub hj1]; simp
  have hrow : ∀ v, v < h → forUp 4 (fun (row : ℝ) k => do
        let u := wadd (wsub i 1) k
        let q ← im.at2 u v
        .ok (row + cv.toR q * cubicKernel (x - (u : ℝ)))) (0 : ℝ)
      = .ok (0 + cv.toR (f (i - 1) v) * cubicKernel (x - i + 1) + cv.toR (f i v) * cubicKernel (x - i) +
          cv.toR (f (i + 1) v) * cubicKernel (x - i - 1) + cv.toR (f (i + 2) v) * cubicKernel (x - i - 2)) := by
    intro v hv
    rw [forUp_four]
    simp only [a0 i w hi1 hi2 hw, a1 i w hi1 hi2 hw, a2 i w hi1 hi2 hw, a3 i w hi1 hi2 hw]
    rw [s.px _ _ (by omega) hv, Res.ok_bind, Res.ok_bind, s.px _ _ (by omega) hv, Res.ok_bind,
      Res.ok_bind, s.px _ _ (by omega) hv, Res.ok_bind, Res.ok_bind, s.px _ _ (by omega) hv, Res.ok_bind]
    have e1 : x - ((i - 1 : Nat) : ℝ) = x - i + 1 := by rw [ci]; ring
    have e2 : x - ((i + 1 : Nat) : ℝ) = x - i - 1 := by push_cast; ring
    have e3 : x - ((i + 2 : Nat) : ℝ) = x - i - 2 := by push_cast; ring
    rw [e1, e2, e3]
  simp only
  unfold bicubic
  simp only [s.width, s.height]
  rw [if_neg hno, toSize_ok hx0' (real_lt_W hw (by linarith)), Res.ok_bind,
    toSize_ok hy0' (real_lt_W hh (by linarith)), Res.ok_bind, hi, hj, forUp_four]
  simp only [a0 j h hj1 hj2 hh, a1 j h hj1 hj2 hh, a2 j h hj1 hj2 hh, a3 j h hj1 hj2 hh]
  rw [hrow _ (by omega), Res.ok_bind, Res.ok_bind, hrow _ (by omega), Res.ok_bind,
    Res.ok_bind, hrow _ (by omega), Res.ok_bind, Res.ok_bind, hrow _ (by omega), Res.ok_bind, Res.ok_bind]
  have e1 : y - ((j - 1 : Nat) : ℝ) = y - j + 1 := by rw [cj]; ring
  have e2 : y - ((j + 1 : Nat) : ℝ) = y - j - 1 := by push_cast; ring
  have e3 : y - ((j + 2 : Nat) : ℝ) = y - j - 2 := by push_cast; ring
  rw [e1, e2, e3]

end

theorem cubicKernel_zero : cubicKernel 0 = 1 := by norm_num [cubicKernel]

theorem cubicKernel_far {x : ℝ} (h : 2 ≤ |x|) : cubicKernel x = 0 := by
  unfold cubicKernel
  simp only
  rw [if_neg (by linarith), if_neg (by linarith)]

theorem cubicKernel_one {x : ℝ} (h : |x| = 1) : cubicKernel x = 0 := by
  unfold cubicKernel
  simp only [h]
  norm_num

theorem cubicKernel_near {x : ℝ} (h : |x| ≤ 1) :
    cubicKernel x = 3 / 2 * |x| ^ 3 - 5 / 2 * |x| ^ 2 + 1 := by
  unfold cubicKernel
  simp only
  rw [if_pos h]
  ring

theorem cubicKernel_mid {x : ℝ} (h1 : 1 ≤ |x|) (h2 : |x| ≤ 2) :
    cubicKernel x = -1 / 2 * |x| ^ 3 + 5 / 2 * |x| ^ 2 - 4 * |x| + 2 := by
  rcases eq_or_lt_of_le h1 with h | h
  · rw [cubicKernel_one h.symm, ← h]; norm_num
  · rcases eq_or_lt_of_le h2 with g | g
    · rw [cubicKernel_far (by linarith), g]; norm_num
    · unfold cubicKernel
      simp only
      rw [if_neg (by linarith), if_pos g]
      ring

/-- The four kernel values at offset `t` between two grid points. -/
theorem cubicKernel_four {t : ℝ} (h0 : 0 ≤ t) (h1 : t ≤ 1) :
    cubicKernel (t + 1) = -1 / 2 * t ^ 3 + t ^ 2 - 1 / 2 * t ∧
    cubicKernel t = 3 / 2 * t ^ 3 - 5 / 2 * t ^ 2 + 1 ∧
    cubicKernel (t - 1) = -3 / 2 * t ^ 3 + 2 * t ^ 2 + 1 / 2 * t ∧
    cubicKernel (t - 2) = 1 / 2 * t ^ 3 - 1 / 2 * t ^ 2 := by
  have e1 : |t + 1| = t + 1 := abs_of_nonneg (by linarith)
  have e2 : |t| = t := abs_of_nonneg h0
  have e3 : |t - 1| = 1 - t := by rw [abs_of_nonpos (by linarith)]; ring
  have e4 : |t - 2| = 2 - t := by rw [abs_of_nonpos (by linarith)]; ring
  refine ⟨?_, ?_, ?_, ?_⟩
  · rw [cubicKernel_mid (by rw [e1]; linarith) (by rw [e1]; linarith), e1]; ring
  · rw [cubicKernel_near (by rw [e2]; exact h1), e2]
  · rw [cubicKernel_near (by rw [e3]; linarith), e3]; ring
  · rw [cubicKernel_mid (by rw [e4]; linarith) (by rw [e4]; linarith), e4]; ring

theorem iterYX_nodup (w h : Nat) : (iterYX w h).Nodup := by
  unfold iterYX
  rw [List.nodup_flatMap]
  refine ⟨fun y _ => List.Nodup.map (fun a b h => by simpa using h) List.nodup_range, ?_⟩
  refine List.Pairwise.imp ?_ (List.nodup_range (n := h))
  intro a b hab
  simp only [Function.onFun, List.disjoint_left, List.mem_map]
  rintro p ⟨x, _, rfl⟩ ⟨x', _, h⟩
  simp only [Prod.mk.injEq] at h
  exact hab h.2.symm

theorem setAt_size {im o : Image α} {idx : List Nat} {v : α} (h : im.setAt idx v = .ok o) :
    o.size = im.size := by
  unfold setAt setAtUnchecked at h
  cases h1 : im.checkBoundary idx with
  | ok u =>
    rw [h1, Res.ok_bind] at h
    cases h2 : im.posUnchecked idx with
    | ok p =>
      rw [h2, Res.ok_bind] at h
      cases h3 : vset im.data p v with
      | ok d => rw [h3, Res.ok_bind] at h; injection h with h; rw [← h]
      | throw e => rw [h3] at h; cases h
      | ub => rw [h3] at h; cases h
    | throw e => rw [h2] at h; cases h
    | ub => rw [h2] at h; cases h
  | throw e => rw [h1] at h; cases h
  | ub => rw [h1] at h; cases h

theorem quarterTurnBranch_shows (zero : α) {im : Image α} {w h : Nat} {f : Nat → Nat → α}
    (s : im.Shows w h f) :
    ∃ out, quarterTurnBranch zero im = .ok out ∧ out.Shows h w fun X Y => f Y (h - 1 - X) := by
  have hw := s.w_lt
  have hh := s.h_lt
  have s0 := ofSizes_shows zero hh hw (by rw [Nat.mul_comm]; exact s.fits)
  have hstep : ∀ b ∈ iterYX w h, ∀ (o : Image α) g, o.Shows h w g →
      ∃ o', (do
        let v ← im.at2 b.1 b.2
        o.set2 (wsub (wsub im.height b.2) 1) b.1 v) = .ok o' ∧
        o'.Shows h w (updPx g (h - 1 - b.2) b.1 (f b.1 (h - 1 - (h - 1 - b.2)))) := by
    rintro ⟨x, y⟩ hb o g sg
    rw [mem_iterYX] at hb
    simp only at hb
    simp only [s.height]
    rw [s.px _ _ hb.1 hb.2, Res.ok_bind, wsub_wsub hb.2 hh]
    obtain ⟨o', e', so'⟩ := sg.set2 (x := h - 1 - y) (y := x) (by omega) hb.1 (f x y)
    have hyy : h - 1 - (h - 1 - y) = y := by omega
    refine ⟨o', e', ?_⟩
    rw [hyy]
    exact so'
  have hcov : ∀ X Y, X < h → Y < w → ∃ b ∈ iterYX w h, (h - 1 - b.2, b.1) = (X, Y) := by
    intro X Y hX hY
    refine ⟨(Y, h - 1 - X), by rw [mem_iterYX]; exact ⟨hY, by simp only; omega⟩, ?_⟩
    simp only [Prod.mk.injEq, and_true]
    omega
  obtain ⟨o, e, so⟩ := loop_fill (fun p : Nat × Nat => (h - 1 - p.2, p.1))
    (fun X Y => f Y (h - 1 - X)) _ (iterYX w h) hstep hcov _ _ s0
  exact ⟨o, by rw [← e, quarterTurnBranch, s.width, s.height, pixFor], so⟩

theorem fmod_mul_int {y : ℝ} (hy : y ≠ 0) (k : ℤ) : fmod ((k : ℝ) * y) y = 0 := by
  unfold fmod
  have : (k : ℝ) * y / y = k := by field_simp
  rw [this]
  simp only [Int.floor_intCast, Int.ceil_intCast, ite_self]
  ring

end TinyDIP
