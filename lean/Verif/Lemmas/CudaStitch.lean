import Verif.Props.Cuda
import Verif.Props.Stitch
import Verif.Props.Resample

namespace TinyDIP.Cuda

open TinyDIP TinyDIP.Image TinyDIP.Stitch TinyDIP.Props TinyDIP.Mat

variable {w h : Nat}

theorem planes_ok {img : Image Rgb} {f : Nat → Nat → Rgb} (s : img.Shows w h f) (hw : 0 < w) (hh : 0 < h) (k : Nat)
    (ch : Px3 (BitVec 8) → BitVec 8) (hch : ∀ p : Px3 (BitVec 8), p.channel k = .ok (ch p)) :
    ∃ p, getPlane 0#8 (⟨img.size, img.data.map toPx3⟩ : Image (Px3 (BitVec 8))) k = .ok p ∧
      p.Shows w h (fun x y => ch (toPx3 (f x y))) := by
  have s' := Resample.map_shows s toPx3
  have hp : 0 < (⟨img.size, img.data.map toPx3⟩ : Image (Px3 (BitVec 8))).size.prod := by
    simp only [s.size]
    simpa using Nat.mul_pos hw hh
  refine ⟨_, ?_, Resample.map_shows s' ch⟩
  rw [getPlane, getPlaneOrd_ok 0#8 _ s'.wf hp k ch hch _ (by rw [s'.wf.count])]

theorem merge_ok {q0 q1 q2 : Image (BitVec 8)} {a b c : Nat → Nat → BitVec 8} (s0 : q0.Shows w h a)
    (s1 : q1.Shows w h b) (s2 : q2.Shows w h c) (hw : 0 < w) (hh : 0 < h) :
    ∃ out, constructPx3 0#8 q0 q1 q2 = .ok out ∧
      (⟨out.size, out.data.map ofPx3⟩ : Image Rgb).Shows w h (fun x y => ((a x y).toNat, (b x y).toNat, (c x y).toNat)) := by
  have e0 : q0 = ⟨[w, h], ((iterYX w h).map fun p => (⟨a p.1 p.2, b p.1 p.2, c p.1 p.2⟩ : Px3 (BitVec 8))).map Px3.c0⟩ := by
    have := s0.data_eq
    have hs := s0.size
    obtain ⟨sz, d⟩ := q0
    simp only at this hs
    rw [this, hs, List.map_map]; rfl
  have e1 : q1 = ⟨[w, h], ((iterYX w h).map fun p => (⟨a p.1 p.2, b p.1 p.2, c p.1 p.2⟩ : Px3 (BitVec 8))).map Px3.c1⟩ := by
    have := s1.data_eq
    have hs := s1.size
    obtain ⟨sz, d⟩ := q1
    simp only at this hs
    rw [this, hs, List.map_map]; rfl
  have e2 : q2 = ⟨[w, h], ((iterYX w h).map fun p => (⟨a p.1 p.2, b p.1 p.2, c p.1 p.2⟩ : Px3 (BitVec 8))).map Px3.c2⟩ := by
    have := s2.data_eq
    have hs := s2.size
    obtain ⟨sz, d⟩ := q2
    simp only at this hs
    rw [this, hs, List.map_map]; rfl
  have hl : ((iterYX w h).map fun p => (⟨a p.1 p.2, b p.1 p.2, c p.1 p.2⟩ : Px3 (BitVec 8))).length = w * h := by
    have := s0.len
    rw [s0.data_eq] at this
    simpa using this
  have hc : q0.count = w * h := s0.count
  refine ⟨⟨[w, h], (iterYX w h).map fun p => (⟨a p.1 p.2, b p.1 p.2, c p.1 p.2⟩ : Px3 (BitVec 8))⟩, ?_, ?_⟩
  · rw [constructPx3, hc, e0, e1, e2]
    refine constructPx3Ord_ok 0#8 [w, h] _ (by rw [hl]; simp) (by simpa using s0.fits)
      (by simpa using Nat.mul_pos hw hh) _ (by rw [hl])
  · refine Image.Shows.of_data s0.w_lt s0.h_lt s0.fits rfl (by simpa using hl) ?_
    intro x y hx hy
    have h0 := s0.data? hx hy
    have h1 := s1.data? hx hy
    have h2 := s2.data? hx hy
    rw [s0.data_eq, List.getElem?_map] at h0
    rw [s1.data_eq, List.getElem?_map] at h1
    rw [s2.data_eq, List.getElem?_map] at h2
    simp only [List.getElem?_map]
    obtain ⟨p, hp⟩ : ∃ p, (iterYX w h)[x + w * y]? = some p := by
      cases hq : (iterYX w h)[x + w * y]? with
      | none => rw [hq] at h0; simp at h0
      | some p => exact ⟨p, rfl⟩
    rw [hp] at h0 h1 h2 ⊢
    simp only [Option.map_some, Option.some.injEq] at h0 h1 h2 ⊢
    rw [← h0, ← h1, ← h2]
    rfl

theorem byte3_toNat (a b c : BitVec 8) : Byte3 (a.toNat, b.toNat, c.toNat) := by
  have ha := a.isLt
  have hb := b.isLt
  have hc := c.isLt
  unfold Byte3
  simp only
  omega

/-- The host's interpolation of an RGB image. -/
theorem bicubicRgb_ok {img : Image Rgb} {f : Nat → Nat → Rgb} (s : img.Shows w h f) (hw : 0 < w) (hh : 0 < h) :
    ∃ p0 p1 p2 : Image (BitVec 8), ∃ k0 k1 k2 : ℝ → ℝ → BitVec 8,
      getPlane 0#8 (⟨img.size, img.data.map toPx3⟩ : Image (Px3 (BitVec 8))) 0 = .ok p0 ∧
      getPlane 0#8 (⟨img.size, img.data.map toPx3⟩ : Image (Px3 (BitVec 8))) 1 = .ok p1 ∧
      getPlane 0#8 (⟨img.size, img.data.map toPx3⟩ : Image (Px3 (BitVec 8))) 2 = .ok p2 ∧
      p0.Shows w h (fun x y => (toPx3 (f x y)).c0) ∧ p1.Shows w h (fun x y => (toPx3 (f x y)).c1) ∧
      p2.Shows w h (fun x y => (toPx3 (f x y)).c2) ∧
      (∀ x y, bicubic Conv.u8 0#8 p0 x y = .ok (k0 x y)) ∧ (∀ x y, bicubic Conv.u8 0#8 p1 x y = .ok (k1 x y)) ∧
      (∀ x y, bicubic Conv.u8 0#8 p2 x y = .ok (k2 x y)) ∧
      ∀ x y, bicubicRgb img x y = .ok ((k0 x y).toNat, (k1 x y).toNat, (k2 x y).toNat) := by
  obtain ⟨p0, e0, s0⟩ := planes_ok s hw hh 0 Px3.c0 (fun _ => rfl)
  obtain ⟨p1, e1, s1⟩ := planes_ok s hw hh 1 Px3.c1 (fun _ => rfl)
  obtain ⟨p2, e2, s2⟩ := planes_ok s hw hh 2 Px3.c2 (fun _ => rfl)
  choose k0 hk0 using C42_never_out_of_range Conv.u8 0#8 s0
  choose k1 hk1 using C42_never_out_of_range Conv.u8 0#8 s1
  choose k2 hk2 using C42_never_out_of_range Conv.u8 0#8 s2
  refine ⟨p0, p1, p2, k0, k1, k2, e0, e1, e2, s0, s1, s2, hk0, hk1, hk2, fun x y => ?_⟩
  unfold bicubicRgb
  simp only [e0, e1, e2, Res.ok_bind, hk0, hk1, hk2]

section
variable {img : Image Rgb} {sw sh : Nat} {f : Nat → Nat → Rgb}

open Classical in
/-- The warp of an RGB image on the device. -/
theorem warpCudaRgb_shows (s : img.Shows sw sh f) (hs : sw * sh < 2 ^ 31) (hsw : 0 < sw) (hsh : 0 < sh) :
    ∃ g : ℝ → ℝ → Rgb, (∀ x y, Byte3 (g x y)) ∧
      ∀ (fails again : Nat → Call → Bool) (order : Nat → List Thread → List Thread) (eps : ℝ) (H : Mat ℝ)
        (M : Matrix (Fin 3) (Fin 3) ℝ) (ow oh : Nat),
        (∀ k c, fails k c = false) → (∀ k l, (order k l).Perm l) → H.Is M → 0 < ow → 0 < oh → ow * oh < 2 ^ 31 →
        oh ≤ 65535 * 16 →
        ∃ out, warpCudaRgb fails again order eps img H ow oh = .ok out ∧
          out.Shows ow oh (fun x y =>
            if |homog M (x : ℝ) (y : ℝ) 2| > eps ∧
              Within sw sh (project M (x : ℝ) (y : ℝ)).1 (project M (x : ℝ) (y : ℝ)).2 then
              g (project M (x : ℝ) (y : ℝ)).1 (project M (x : ℝ) (y : ℝ)).2 else (0, 0, 0)) := by
  obtain ⟨p0, p1, p2, k0, k1, k2, e0, e1, e2, s0, s1, s2, -, -, -, -⟩ := bicubicRgb_ok s hsw hsh
  obtain ⟨g0, -, -, h0⟩ := C135_warp Conv.u8 0#8 s0 hs hsw hsh
  obtain ⟨g1, -, -, h1⟩ := C135_warp Conv.u8 0#8 s1 hs hsw hsh
  obtain ⟨g2, -, -, h2⟩ := C135_warp Conv.u8 0#8 s2 hs hsw hsh
  refine ⟨fun x y => ((g0 x y).toNat, (g1 x y).toNat, (g2 x y).toNat), fun x y => byte3_toNat _ _ _, ?_⟩
  intro fails again order eps H M ow oh hf ho hH how hoh hwh hgrid
  obtain ⟨q0, eq0, sq0⟩ := h0 (fails 0) (again 0) (order 0) eps H M ow oh (hf 0) (ho 0) hH how hoh hwh hgrid
  obtain ⟨q1, eq1, sq1⟩ := h1 (fails 1) (again 1) (order 1) eps H M ow oh (hf 1) (ho 1) hH how hoh hwh hgrid
  obtain ⟨q2, eq2, sq2⟩ := h2 (fails 2) (again 2) (order 2) eps H M ow oh (hf 2) (ho 2) hH how hoh hwh hgrid
  obtain ⟨out, eo, so⟩ := merge_ok sq0 sq1 sq2 how hoh
  refine ⟨⟨out.size, out.data.map ofPx3⟩, ?_, so.congr fun x y _ _ => ?_⟩
  · unfold warpCudaRgb
    simp only [e0, e1, e2, eq0, eq1, eq2, eo, Res.ok_bind]
  · split <;> rfl

/-- Where the device and the host agree on an RGB image. -/
theorem warpCudaRgb_eq (s : img.Shows sw sh f) (hs : sw * sh < 2 ^ 31) (hsw : 0 < sw) (hsh : 0 < sh)
    (fails again : Nat → Call → Bool) (order : Nat → List Thread → List Thread) (eps : ℝ) {H : Mat ℝ}
    {M : Matrix (Fin 3) (Fin 3) ℝ} {ow oh : Nat} {orderC : List (Nat × Nat)}
    (hf : ∀ k c, fails k c = false) (ho : ∀ k l, (order k l).Perm l) (hoC : orderC.Perm (iterYX ow oh)) (hH : H.Is M)
    (how : 0 < ow) (hoh : 0 < oh) (hwh : ow * oh < 2 ^ 31) (hgrid : oh ≤ 65535 * 16)
    (heps : ∀ x y : Nat, x < ow → y < oh → |homog M (x : ℝ) (y : ℝ) 2| ≠ eps)
    (hpos : ∀ x y : Nat, x < ow → y < oh →
      Interior sw sh (project M (x : ℝ) (y : ℝ)).1 (project M (x : ℝ) (y : ℝ)).2 ∨
      ¬ Within sw sh (project M (x : ℝ) (y : ℝ)).1 (project M (x : ℝ) (y : ℝ)).2 ∨
      OnPixel sw sh (project M (x : ℝ) (y : ℝ)).1 (project M (x : ℝ) (y : ℝ)).2) :
    warpCudaRgb fails again order eps img H ow oh =
      warpSeq (0, 0, 0) eps (bicubicRgb img) H ow oh orderC := by
  have how31 : ow < 2 ^ 31 := lt_of_le_of_lt (Nat.le_mul_of_pos_right ow hoh) hwh
  have hoh31 : oh < 2 ^ 31 := lt_of_le_of_lt (Nat.le_mul_of_pos_left oh how) hwh
  obtain ⟨p0, p1, p2, k0, k1, k2, e0, e1, e2, s0, s1, s2, hk0, hk1, hk2, hk⟩ := bicubicRgb_ok s hsw hsh
  have r : ∀ (k : Nat) (p : Image (BitVec 8)) (f' : Nat → Nat → BitVec 8) (kk : ℝ → ℝ → BitVec 8), p.Shows sw sh f' →
      (∀ x y, bicubic Conv.u8 0#8 p x y = .ok (kk x y)) →
      ∃ q, (warpCuda (fails k) (again k) (order k) 0#8 (bicubicDevice Conv.u8) eps p H ow oh).2 = .ok q ∧
        q.Shows ow oh (fun x y => if |homog M (x : ℝ) (y : ℝ) 2| < eps then 0#8
          else kk (project M (x : ℝ) (y : ℝ)).1 (project M (x : ℝ) (y : ℝ)).2) := by
    intro k p f' kk sp hkk
    rw [C135_same_as_cpu_partial Conv.u8 conv_u8_lawful 0#8 sp hs hsw hsh (fails k) (again k) (order k) eps H M ow oh
      orderC (hf k) (ho k) hoC hH how hoh hwh hgrid heps hpos]
    exact warpSeq_shows 0#8 eps hkk hH (by omega) (by omega) (by omega) hoC
  obtain ⟨q0, eq0, sq0⟩ := r 0 p0 _ k0 s0 hk0
  obtain ⟨q1, eq1, sq1⟩ := r 1 p1 _ k1 s1 hk1
  obtain ⟨q2, eq2, sq2⟩ := r 2 p2 _ k2 s2 hk2
  obtain ⟨out, eo, so⟩ := merge_ok sq0 sq1 sq2 how hoh
  obtain ⟨o2, ew, sw'⟩ := warpSeq_shows (0, 0, 0) eps hk hH (w := ow) (h := oh) (by omega) (by omega) (by omega) hoC
  unfold warpCudaRgb
  simp only [e0, e1, e2, eq0, eq1, eq2, eo, Res.ok_bind, ew]
  congr 1
  refine so.ext sw' fun x y _ _ => ?_
  split <;> rfl

end

/-- The steps of the stitching functions before the warp. -/
theorem stitch_prefix {δ : ℝ} {interp : Image Rgb → ℝ → ℝ → Res Rgb} {img1 img2 : Image Rgb} {Hin : Mat ℝ}
    {w1 h1 w2 h2 Bx By : Nat} {f1 : Nat → Nat → Rgb} {g : ℝ → ℝ → Rgb} {M N : Matrix (Fin 3) (Fin 3) ℝ}
    (sc : Scene δ interp img1 img2 Hin w1 h1 w2 h2 Bx By f1 g M N) (hw1 : 0 < w1) (hh1 : 0 < h1) :
    ∃ (s : ℝ × ℝ × ℝ × ℝ) (ow oh : Nat) (F : Mat ℝ), BoundsOf N w1 h1 (corners w2 h2) s ∧ -1 < s.1 ∧ -1 < s.2.2.1 ∧
      0 < ow ∧ 0 < oh ∧ ow ≤ Bx + 1 ∧ oh ≤ By + 1 ∧ F.Is (shift (-s.1) (-s.2.2.1) * M) ∧
      -s.1 + (w1 : ℝ) < 2 ^ 64 ∧ -s.2.2.1 + (h1 : ℝ) < 2 ^ 64 ∧
      (∀ fails again order eps orderB, createStitchedCuda (fun d => decide (|d| < δ)) fails again order eps orderB img1
        img2 Hin = (do
          let warped ← warpCudaRgb fails again order eps img2 F ow oh
          blend img1 warped (-s.1) (-s.2.2.1) ow oh (orderB ow oh))) ∧
      (∀ interp eps orderW orderB, createStitched (fun d => decide (|d| < δ)) eps interp orderW orderB img1
        img2 Hin = (do
          let warped ← warpSeq (0, 0, 0) eps (interp img2) F ow oh (orderW ow oh)
          blend img1 warped (-s.1) (-s.2.2.1) ow oh (orderB ow oh))) := by
  obtain ⟨f2, s2⟩ := sc.image2
  have s1 := sc.image1
  obtain ⟨R, N', eR, hR, hN', hN''⟩ := (C29_inverse δ sc.pos sc.hom).2 sc.det
  have hNN : N' = N := by
    calc N' = (N * M) * N' := by rw [sc.inverse, one_mul]
      _ = N := by rw [Matrix.mul_assoc, hN'', mul_one]
  subst hNN
  obtain ⟨s, es, hs⟩ := canvasBounds_ok (w1 := w1) (h1 := h1) sc.width2 sc.height2 s2.w_lt s2.h_lt sc.finite
  have hin := sc.inside
  have mx : -1 < s.1 := by
    rcases hs.ax with h | ⟨c, h1, h2⟩
    · rw [h]; norm_num
    · rw [h2]; exact (hin c h1).1
  have my : -1 < s.2.2.1 := by
    rcases hs.ay with h | ⟨c, h1, h2⟩
    · rw [h]; norm_num
    · rw [h2]; exact (hin c h1).2.2.1
  have Mx : s.2.1 ≤ Bx := by
    rcases hs.bx with h | ⟨c, h1, h2⟩
    · rw [h]; exact_mod_cast sc.inX
    · rw [h2]; exact (hin c h1).2.1
  have My : s.2.2.2 ≤ By := by
    rcases hs.by' with h | ⟨c, h1, h2⟩
    · rw [h]; exact_mod_cast sc.inY
    · rw [h2]; exact (hin c h1).2.2.2
  have w1p : (0 : ℝ) < w1 := by exact_mod_cast hw1
  have h1p : (0 : ℝ) < h1 := by exact_mod_cast hh1
  have hBx : Bx + 1 < 2 ^ 64 := lt_of_le_of_lt (Nat.le_mul_of_pos_right _ (Nat.succ_pos _)) sc.fits
  have hBy : By + 1 < 2 ^ 64 := lt_of_le_of_lt (Nat.le_mul_of_pos_left _ (Nat.succ_pos _)) sc.fits
  have size : ∀ (a b : ℝ) (B : Nat), b ≤ 0 → 0 < a → -1 < b → a ≤ B → B + 1 < 2 ^ 64 →
      ∃ n : Nat, Sift.toSize ((⌈a - b⌉ : Int) : ℝ) = .ok n ∧ 0 < n ∧ n ≤ B + 1 := by
    intro a b B hb ha hb1 haB hB
    have c0 : 0 < ⌈a - b⌉ := Int.ceil_pos.2 (by linarith)
    have c1 : ⌈a - b⌉ ≤ ((B + 1 : Nat) : Int) := by
      rw [Int.ceil_le]; push_cast; linarith
    refine ⟨⌈a - b⌉.toNat, ?_, by omega, by omega⟩
    rw [toSize_nn, Int.floor_intCast]
    · have : ((0 : Int) : ℝ) ≤ ((⌈a - b⌉ : Int) : ℝ) := by exact_mod_cast c0.le
      push_cast at this
      linarith
    · have : (⌈a - b⌉ : Int) < 2 ^ 64 := by omega
      exact_mod_cast this
  obtain ⟨ow, eow, pow', uow⟩ := size s.2.1 s.1 Bx hs.x0 (w1p.trans_le hs.x1) mx Mx hBx
  obtain ⟨oh, eoh, poh, uoh⟩ := size s.2.2.2 s.2.2.1 By hs.y0 (h1p.trans_le hs.y1) my My hBy
  obtain ⟨T, eT, hT⟩ := translation_ok (-s.1) (-s.2.2.1)
  obtain ⟨F, eF, hF⟩ := C28_product hT sc.hom (by norm_num)
  have bx : -s.1 + (w1 : ℝ) < 2 ^ 64 := by
    have h1 : (w1 : ℝ) ≤ Bx := by exact_mod_cast sc.inX
    have h2 : ((Bx + 1 : Nat) : ℝ) < 2 ^ 64 := by exact_mod_cast hBx
    push_cast at h2
    linarith
  have by_ : -s.2.2.1 + (h1 : ℝ) < 2 ^ 64 := by
    have h1 : (h1 : ℝ) ≤ By := by exact_mod_cast sc.inY
    have h2 : ((By + 1 : Nat) : ℝ) < 2 ^ 64 := by exact_mod_cast hBy
    push_cast at h2
    linarith
  refine ⟨s, ow, oh, F, hs, mx, my, pow', poh, uow, uoh, hF, bx, by_, ?_, ?_⟩
  · intro fails again order eps orderB
    unfold createStitchedCuda
    rw [isEmpty_false sc.hom]
    simp only [Bool.false_eq_true, if_false, eR, Res.ok_bind, isEmpty_false hR, readHom_ok hR, s1.width, s1.height,
      s2.width, s2.height, es, eow, eoh, eT, eF]
  · intro interp eps orderW orderB
    unfold createStitched
    rw [isEmpty_false sc.hom]
    simp only [Bool.false_eq_true, if_false, eR, Res.ok_bind, isEmpty_false hR, readHom_ok hR, s1.width, s1.height,
      s2.width, s2.height, es, eow, eoh, eT, eF]

end TinyDIP.Cuda
