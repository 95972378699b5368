import Verif.Lemmas.CudaStitch

/-!
# Properties of stitching on the graphics processor (C137)
-/

namespace TinyDIP.Cuda

open TinyDIP TinyDIP.Image TinyDIP.Stitch TinyDIP.Props

variable {δ eps : ℝ} {interp : Image Rgb → ℝ → ℝ → Res Rgb} {img1 img2 : Image Rgb} {Hin : Mat ℝ}
  {w1 h1 w2 h2 Bx By : Nat} {f1 : Nat → Nat → Rgb} {g : ℝ → ℝ → Rgb} {M N : Matrix (Fin 3) (Fin 3) ℝ}

/-- The stitched image does not depend on the order in which the threads run on the device, which may differ from plane
to plane, nor on the order in which the host blends the pixels. Missing: scenes in which image 2 sticks out by a
pixel or more at the left or at the top. -/
theorem C137_schedules_partial (sc : Scene δ interp img1 img2 Hin w1 h1 w2 h2 Bx By f1 g M N) (hw1 : 0 < w1)
    (hh1 : 0 < h1) (hsrc : w2 * h2 < 2 ^ 31) (hfit : (Bx + 1) * (By + 1) < 2 ^ 31) (hgrid : By + 1 ≤ 65535 * 16) :
    ∃ out, ∀ (fails again : Nat → Call → Bool) (order : Nat → List Thread → List Thread)
      (orderB : Nat → Nat → List (Nat × Nat)),
      (∀ k c, fails k c = false) → (∀ k l, (order k l).Perm l) → (∀ a b, (orderB a b).Perm (iterYX a b)) →
      createStitchedCuda (fun d => decide (|d| < δ)) fails again order eps orderB img1 img2 Hin = .ok out := by
  obtain ⟨f2, s2⟩ := sc.image2
  obtain ⟨s, ow, oh, F, hs, mx, my, pow', poh, uow, uoh, hF, bx, by_, ec, -⟩ := stitch_prefix sc hw1 hh1
  have hwh : ow * oh < 2 ^ 31 := lt_of_le_of_lt (Nat.mul_le_mul uow uoh) hfit
  have how31 : ow < 2 ^ 31 := lt_of_le_of_lt (Nat.le_mul_of_pos_right ow poh) hwh
  have hoh31 : oh < 2 ^ 31 := lt_of_le_of_lt (Nat.le_mul_of_pos_left oh pow') hwh
  obtain ⟨k, bk, hk⟩ := warpCudaRgb_shows s2 hsrc sc.width2 sc.height2
  have one : ∀ (fails again : Nat → Call → Bool) (order : Nat → List Thread → List Thread)
      (orderB : Nat → Nat → List (Nat × Nat)),
      (∀ k c, fails k c = false) → (∀ k l, (order k l).Perm l) → (∀ a b, (orderB a b).Perm (iterYX a b)) →
      ∃ out, createStitchedCuda (fun d => decide (|d| < δ)) fails again order eps orderB img1 img2 Hin = .ok out ∧
        out.Shows ow oh (canvasPixel (-s.1) (-s.2.2.1) w1 h1 f1 (by classical exact (fun x y =>
            if |homog (shift (-s.1) (-s.2.2.1) * M) (x : ℝ) (y : ℝ) 2| > eps ∧
              Within w2 h2 (project (shift (-s.1) (-s.2.2.1) * M) (x : ℝ) (y : ℝ)).1
                (project (shift (-s.1) (-s.2.2.1) * M) (x : ℝ) (y : ℝ)).2 then
              k (project (shift (-s.1) (-s.2.2.1) * M) (x : ℝ) (y : ℝ)).1
                (project (shift (-s.1) (-s.2.2.1) * M) (x : ℝ) (y : ℝ)).2 else (0, 0, 0)))) := by
    intro fails again order orderB hf ho hb
    obtain ⟨wa, ewa, swa⟩ := hk fails again order eps F _ ow oh hf ho hF pow' poh hwh (by omega)
    have x0 := hs.x0
    have y0 := hs.y0
    obtain ⟨out, eo, so⟩ := blend_shows sc.image1 swa sc.bytes1 (by
      intro x y _ _
      split
      · exact bk _ _
      · simp [Byte3]) (tx := -s.1) (ty := -s.2.2.1) (by linarith) (by linarith) (by linarith) (by linarith) bx by_
      (hb ow oh)
    refine ⟨out, ?_, so⟩
    rw [ec, ewa, Res.ok_bind, eo]
  obtain ⟨out, e, so⟩ := one (fun _ _ => false) (fun _ _ => true) (fun _ => id) iterYX (fun _ _ => rfl)
    (fun _ _ => List.Perm.refl _) (fun _ _ => List.Perm.refl _)
  refine ⟨out, fun fails again order orderB hf ho hb => ?_⟩
  obtain ⟨out', e', so'⟩ := one fails again order orderB hf ho hb
  rw [e']
  congr 1
  exact so'.ext so fun _ _ _ _ => rfl

/-- Stitching on the graphics processor gives the image that stitching on the host (without execution policy, with
bicubic interpolation) gives, when image 2 does not stick out at the left or at the top, no pixel of the canvas has
its source position near the border of image 2 unless it is exactly on a pixel, and no denominator is exactly at the
threshold. Missing: other scenes, as in C56 and C135. -/
theorem C137_same_as_cpu_partial (sc : Scene δ interp img1 img2 Hin w1 h1 w2 h2 Bx By f1 g M N) (hw1 : 0 < w1)
    (hh1 : 0 < h1) (hsrc : w2 * h2 < 2 ^ 31) (hfit : (Bx + 1) * (By + 1) < 2 ^ 31) (hgrid : By + 1 ≤ 65535 * 16)
    (hnn : ∀ c ∈ corners w2 h2, 0 ≤ (project N (c.1 : ℝ) (c.2 : ℝ)).1 ∧ 0 ≤ (project N (c.1 : ℝ) (c.2 : ℝ)).2)
    (heps : ∀ x y : Nat, x ≤ Bx → y ≤ By → |homog M (x : ℝ) (y : ℝ) 2| ≠ eps)
    (hpos : ∀ x y : Nat, x ≤ Bx → y ≤ By →
      Interior w2 h2 (project M (x : ℝ) (y : ℝ)).1 (project M (x : ℝ) (y : ℝ)).2 ∨
      ¬ Within w2 h2 (project M (x : ℝ) (y : ℝ)).1 (project M (x : ℝ) (y : ℝ)).2 ∨
      OnPixel w2 h2 (project M (x : ℝ) (y : ℝ)).1 (project M (x : ℝ) (y : ℝ)).2)
    (fails again : Nat → Call → Bool) (order : Nat → List Thread → List Thread)
    (orderW orderB : Nat → Nat → List (Nat × Nat)) (hf : ∀ k c, fails k c = false) (ho : ∀ k l, (order k l).Perm l)
    (hW : ∀ a b, (orderW a b).Perm (iterYX a b)) :
    createStitchedCuda (fun d => decide (|d| < δ)) fails again order eps orderB img1 img2 Hin =
      createStitched (fun d => decide (|d| < δ)) eps bicubicRgb orderW orderB img1 img2 Hin := by
  obtain ⟨f2, s2⟩ := sc.image2
  obtain ⟨s, ow, oh, F, hs, mx, my, pow', poh, uow, uoh, hF, bx, by_, ec, eh⟩ := stitch_prefix sc hw1 hh1
  have hwh : ow * oh < 2 ^ 31 := lt_of_le_of_lt (Nat.mul_le_mul uow uoh) hfit
  have x0 : s.1 = 0 := by
    rcases hs.ax with h | ⟨c, hc, h⟩
    · exact h
    · exact le_antisymm hs.x0 (h ▸ (hnn c hc).1)
  have y0 : s.2.2.1 = 0 := by
    rcases hs.ay with h | ⟨c, hc, h⟩
    · exact h
    · exact le_antisymm hs.y0 (h ▸ (hnn c hc).2)
  have hshift : shift (-s.1) (-s.2.2.1) * M = M := by
    have : shift (-s.1) (-s.2.2.1) = 1 := by
      rw [x0, y0]
      ext i j
      fin_cases i <;> fin_cases j <;> simp [shift]
    rw [this, one_mul]
  rw [hshift] at hF
  rw [ec, eh, warpCudaRgb_eq s2 hsrc sc.width2 sc.height2 fails again order eps hf ho (hW ow oh) hF pow' poh hwh
    (by omega) (fun x y hx hy => heps x y (by omega) (by omega)) (fun x y hx hy => hpos x y (by omega) (by omega))]

theorem device_on_grid {α : Type} (cv : Conv α) (hcv : cv.Lawful) (zero : α) {img : Image α} {sw sh : Nat}
    {f : Nat → Nat → α} (s : img.Shows sw sh f) {g : ℝ → ℝ → α}
    (g1 : ∀ x y, Interior sw sh x y → bicubic cv zero img x y = .ok (g x y))
    (g2 : ∀ x y, Within sw sh x y → ¬ Interior sw sh x y → ∃ i j, Nearest sw x i ∧ Nearest sh y j ∧ g x y = f i j)
    {i j : Nat} (hi : i < sw) (hj : j < sh) : g (i : ℝ) (j : ℝ) = f i j := by
  by_cases hin : Interior sw sh (i : ℝ) (j : ℝ)
  · have := g1 _ _ hin
    rw [C42_exact_on_grid cv hcv zero s i j hi hj] at this
    injection this with this
    exact this.symm
  · obtain ⟨a, b, na, nb, e⟩ := g2 (i : ℝ) (j : ℝ)
      ⟨by positivity, by exact_mod_cast hi, by positivity, by exact_mod_cast hj⟩ hin
    have near : ∀ n k c : Nat, k < n → Nearest n (k : ℝ) c → c = k := by
      intro n k c hk hc
      have := hc.2 k hk
      simp only [sub_self, abs_zero] at this
      have h0 := abs_eq_zero.1 (le_antisymm this (abs_nonneg _))
      have : (k : ℝ) = c := by linarith
      exact_mod_cast this.symm
    rw [e, near _ _ _ hi na, near _ _ _ hj nb]

/-- The warp of an RGB image on the graphics processor: where the source position is a pixel, all three channels are
those of the pixel; where it is outside the source or the denominator is too small, the result is black. -/
theorem C137_pixels {img : Image Rgb} {sw sh : Nat} {f : Nat → Nat → Rgb} (s : img.Shows sw sh f)
    (hb : ∀ x y, x < sw → y < sh → (f x y).1 ≤ 255 ∧ (f x y).2.1 ≤ 255 ∧ (f x y).2.2 ≤ 255)
    (hs : sw * sh < 2 ^ 31) (hsw : 0 < sw) (hsh : 0 < sh) (fails again : Nat → Call → Bool)
    (order : Nat → List Thread → List Thread) (eps : ℝ) (H : Mat ℝ) (M : Matrix (Fin 3) (Fin 3) ℝ) (ow oh : Nat)
    (hf : ∀ k c, fails k c = false) (ho : ∀ k l, (order k l).Perm l) (hH : H.Is M) (how : 0 < ow) (hoh : 0 < oh)
    (hwh : ow * oh < 2 ^ 31) (hgrid : oh ≤ 65535 * 16) :
    ∃ out F, warpCudaRgb fails again order eps img H ow oh = .ok out ∧ out.Shows ow oh F ∧
      (∀ x y i j : Nat, i < sw → j < sh → |homog M (x : ℝ) (y : ℝ) 2| > eps →
        project M (x : ℝ) (y : ℝ) = ((i : ℝ), (j : ℝ)) → F x y = f i j) ∧
      ∀ x y : Nat, (|homog M (x : ℝ) (y : ℝ) 2| ≤ eps ∨
        ¬ Within sw sh (project M (x : ℝ) (y : ℝ)).1 (project M (x : ℝ) (y : ℝ)).2) → F x y = (0, 0, 0) := by
  classical
  obtain ⟨p0, p1, p2, k0, k1, k2, e0, e1, e2, s0, s1, s2, -, -, -, -⟩ := bicubicRgb_ok s hsw hsh
  obtain ⟨g0, a0, b0, h0⟩ := C135_warp Conv.u8 0#8 s0 hs hsw hsh
  obtain ⟨g1, a1, b1, h1⟩ := C135_warp Conv.u8 0#8 s1 hs hsw hsh
  obtain ⟨g2, a2, b2, h2⟩ := C135_warp Conv.u8 0#8 s2 hs hsw hsh
  obtain ⟨q0, eq0, sq0⟩ := h0 (fails 0) (again 0) (order 0) eps H M ow oh (hf 0) (ho 0) hH how hoh hwh hgrid
  obtain ⟨q1, eq1, sq1⟩ := h1 (fails 1) (again 1) (order 1) eps H M ow oh (hf 1) (ho 1) hH how hoh hwh hgrid
  obtain ⟨q2, eq2, sq2⟩ := h2 (fails 2) (again 2) (order 2) eps H M ow oh (hf 2) (ho 2) hH how hoh hwh hgrid
  obtain ⟨out, eo, so⟩ := merge_ok sq0 sq1 sq2 how hoh
  refine ⟨⟨out.size, out.data.map ofPx3⟩, _, ?_, so, ?_, ?_⟩
  · unfold warpCudaRgb
    simp only [e0, e1, e2, eq0, eq1, eq2, eo, Res.ok_bind]
  · intro x y i j hi hj hgt hp
    have hin : Within sw sh (i : ℝ) (j : ℝ) :=
      ⟨by positivity, by exact_mod_cast hi, by positivity, by exact_mod_cast hj⟩
    simp only [hp, if_pos (And.intro hgt hin)]
    rw [device_on_grid Conv.u8 conv_u8_lawful 0#8 s0 a0 b0 hi hj,
      device_on_grid Conv.u8 conv_u8_lawful 0#8 s1 a1 b1 hi hj,
      device_on_grid Conv.u8 conv_u8_lawful 0#8 s2 a2 b2 hi hj]
    obtain ⟨u, v, w⟩ := hb i j hi hj
    have : ∀ n : Nat, n ≤ 255 → (BitVec.ofNat 8 n).toNat = n := fun n hn => by
      rw [BitVec.toNat_ofNat, Nat.mod_eq_of_lt (by omega)]
    simp only [toPx3, this _ u, this _ v, this _ w]
  · intro x y hbad
    have : ¬ (|homog M (x : ℝ) (y : ℝ) 2| > eps ∧
        Within sw sh (project M (x : ℝ) (y : ℝ)).1 (project M (x : ℝ) (y : ℝ)).2) := by
      rintro ⟨h1, h2⟩
      rcases hbad with h | h
      · exact absurd h1 (not_lt.2 h)
      · exact h h2
    simp only [if_neg this]
    rfl

/-! A scene that meets the hypotheses: a red pixel and a row of three pixels, the identity. -/

/-- One red pixel. -/
def dot : Image Rgb := ⟨[1, 1], [(200, 0, 0)]⟩

/-- Three pixels. -/
def row3 : Image Rgb := ⟨[3, 1], [(0, 100, 0), (0, 0, 100), (50, 50, 50)]⟩

/-- The identity. -/
noncomputable def idMat : Mat ℝ := ⟨3, 3, [1, 0, 0, 0, 1, 0, 0, 0, 1]⟩

theorem idMat_is : idMat.Is (1 : Matrix (Fin 3) (Fin 3) ℝ) := by
  refine ⟨rfl, rfl, rfl, by norm_num, ?_⟩
  intro i j
  fin_cases i <;> fin_cases j <;> simp [idMat, Mat.get, wadd, wmul, W, vget, Matrix.one_apply]

theorem row3_shows : row3.Shows 3 1 (fun x _ => row3.data.getD x (0, 0, 0)) := by
  refine Image.Shows.of_data (by norm_num) (by norm_num) (by norm_num) rfl rfl ?_
  intro x y hx hy
  obtain rfl : y = 0 := by omega
  obtain rfl | rfl | rfl : x = 0 ∨ x = 1 ∨ x = 2 := by omega <;> rfl
  all_goals rfl

theorem one_homog (x y : ℝ) : homog (1 : Matrix (Fin 3) (Fin 3) ℝ) x y = ![x, y, 1] := by
  simp [homog]

theorem one_project (x y : ℝ) : project (1 : Matrix (Fin 3) (Fin 3) ℝ) x y = (x, y) := by
  simp [project, one_homog]

theorem idScene : ∃ g, Scene (1 / 1000 : ℝ) (fun img => bicubicRgb img) dot row3 idMat 1 1 3 1 3 1
    (fun _ _ => (200, 0, 0)) g 1 1 := by
  obtain ⟨-, -, -, k0, k1, k2, -, -, -, -, -, -, -, -, -, hk⟩ := bicubicRgb_ok row3_shows (by norm_num) (by norm_num)
  refine ⟨fun x y => ((k0 x y).toNat, (k1 x y).toNat, (k2 x y).toNat), ?_⟩
  exact {
    pos := by norm_num
    image1 := Image.Shows.of_data (by norm_num) (by norm_num) (by norm_num) rfl rfl (by
      intro x y hx hy
      obtain rfl : x = 0 := by omega
      obtain rfl : y = 0 := by omega
      rfl)
    image2 := ⟨_, row3_shows⟩
    width2 := by norm_num
    height2 := by norm_num
    bytes1 := by intro x y _ _; simp [Byte3]
    values := hk
    bytes2 := fun x y => byte3_toNat _ _ _
    hom := idMat_is
    inverse := by simp
    det := by simp; norm_num
    detN := by simp; norm_num
    finite := by intro c _; rw [one_homog]; simp
    fits := by norm_num
    inX := by norm_num
    inY := by norm_num
    inside := by
      intro c hc
      rw [one_project]
      simp only [corners, List.mem_cons, List.not_mem_nil, or_false] at hc
      rcases hc with rfl | rfl | rfl | rfl <;> norm_num }

example : ∃ out, ∀ order : Nat → List Thread → List Thread, (∀ k l, (order k l).Perm l) →
    createStitchedCuda (fun d => decide (|d| < 1 / 1000)) (fun _ _ => false) (fun _ _ => true) order (1 / 1000000) iterYX
      dot row3 idMat = .ok out := by
  obtain ⟨g, sc⟩ := idScene
  obtain ⟨out, h⟩ := C137_schedules_partial (eps := 1 / 1000000) sc (by norm_num) (by norm_num) (by norm_num)
    (by norm_num) (by norm_num)
  exact ⟨out, fun order ho => h _ _ _ _ (fun _ _ => rfl) ho (fun _ _ => List.Perm.refl _)⟩

example : createStitchedCuda (fun d => decide (|d| < 1 / 1000)) (fun _ _ => false) (fun _ _ => true)
      (fun _ => List.reverse) (1 / 1000000) iterYX dot row3 idMat =
    createStitched (fun d => decide (|d| < 1 / 1000)) (1 / 1000000) bicubicRgb iterYX iterYX dot row3 idMat := by
  obtain ⟨g, sc⟩ := idScene
  refine C137_same_as_cpu_partial sc (by norm_num) (by norm_num) (by norm_num) (by norm_num) (by norm_num) ?_ ?_ ?_ _ _ _ _ _
    (fun _ _ => rfl) (fun _ l => l.reverse_perm) (fun _ _ => List.Perm.refl _)
  · intro c _; rw [one_project]; exact ⟨Nat.cast_nonneg _, Nat.cast_nonneg _⟩
  · intro x y _ _; rw [one_homog]; simp
  · intro x y _ _
    rw [one_project]
    by_cases hx : x < 3 ∧ y < 1
    · exact Or.inr (Or.inr ⟨x, y, hx.1, hx.2, rfl, rfl⟩)
    · refine Or.inr (Or.inl ?_)
      rintro ⟨-, h1, -, h2⟩
      dsimp only at h1 h2
      exact hx ⟨by exact_mod_cast h1, by exact_mod_cast h2⟩

example : ∃ out F, warpCudaRgb (fun _ _ => false) (fun _ _ => true) (fun _ => List.reverse) (1 / 1000000) row3 idMat 3 1 =
    .ok out ∧ out.Shows 3 1 F ∧ F 0 0 = (0, 100, 0) ∧ F 1 0 = (0, 0, 100) := by
  obtain ⟨out, F, e, s, h, -⟩ := C137_pixels row3_shows (by
      intro x y hx hy
      obtain rfl | rfl | rfl : x = 0 ∨ x = 1 ∨ x = 2 := by omega
      all_goals simp [row3]) (by norm_num) (by norm_num) (by norm_num)
    (fun _ _ => false) (fun _ _ => true) (fun _ => List.reverse) (1 / 1000000) idMat 1 3 1 (fun _ _ => rfl)
    (fun _ l => l.reverse_perm) idMat_is (by norm_num) (by norm_num) (by norm_num) (by norm_num)
  refine ⟨out, F, e, s, ?_, ?_⟩
  · rw [h 0 0 0 0 (by norm_num) (by norm_num) (by rw [one_homog]; simp; norm_num) (by rw [one_project])]; rfl
  · rw [h 1 0 1 0 (by norm_num) (by norm_num) (by rw [one_homog]; simp; norm_num) (by rw [one_project])]; rfl

end TinyDIP.Cuda
