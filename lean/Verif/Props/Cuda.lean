import Verif.Lemmas.Cuda
import Verif.Props.Interp
import Mathlib.Tactic.FinCases

/-!
# Properties of the warp on the graphics processor (C135, C136)
-/

namespace TinyDIP.Cuda

open TinyDIP TinyDIP.Image TinyDIP.Stitch TinyDIP.Props

variable {α : Type}

/-! ## C135: every thread order gives the same image, and where it agrees with the host -/

/-- The grid has exactly one thread for every pixel of the output. -/
theorem C135_one_thread {ow oh : Nat} (hw : ow < 2 ^ 31) (hh : oh < 2 ^ 31) :
    (threads (blocks ow) (blocks oh)).Nodup ∧
    ∀ x y, x < ow → y < oh → ∃ t ∈ threads (blocks ow) (blocks oh),
      (t.bx * 16 + t.tx = x ∧ t.by' * 16 + t.ty = y) ∧
      ∀ t' ∈ threads (blocks ow) (blocks oh), t'.bx * 16 + t'.tx = x ∧ t'.by' * 16 + t'.ty = y → t' = t := by
  constructor
  · unfold threads
    rw [List.nodup_flatMap]
    refine ⟨fun b _ => ?_, ?_⟩
    · rw [List.nodup_flatMap]
      refine ⟨fun a _ => ?_, ?_⟩
      · rw [List.nodup_flatMap]
        refine ⟨fun c _ => ?_, ?_⟩
        · refine List.Nodup.map ?_ List.nodup_range
          intro u v h
          simpa using h
        · refine List.Nodup.pairwise_of_forall_ne List.nodup_range ?_
          intro c _ c' _ hne t h1 h2
          simp only [List.mem_map] at h1 h2
          obtain ⟨_, _, rfl⟩ := h1
          obtain ⟨_, _, h⟩ := h2
          simp only [Thread.mk.injEq] at h
          exact hne h.2.2.2.symm
      · refine List.Nodup.pairwise_of_forall_ne List.nodup_range ?_
        intro c _ c' _ hne t h1 h2
        simp only [List.mem_map, List.mem_flatMap] at h1 h2
        obtain ⟨_, _, _, _, rfl⟩ := h1
        obtain ⟨_, _, _, _, h⟩ := h2
        simp only [Thread.mk.injEq] at h
        exact hne h.1.symm
    · refine List.Nodup.pairwise_of_forall_ne List.nodup_range ?_
      intro c _ c' _ hne t h1 h2
      simp only [List.mem_map, List.mem_flatMap] at h1 h2
      obtain ⟨_, _, _, _, _, _, rfl⟩ := h1
      obtain ⟨_, _, _, _, _, _, h⟩ := h2
      simp only [Thread.mk.injEq] at h
      exact hne h.2.1.symm
  · intro x y hx hy
    refine ⟨⟨x / 16, y / 16, x % 16, y % 16⟩,
      mem_threads.2 ⟨blocks_cover hw hx, blocks_cover hh hy, Nat.mod_lt _ (by omega), Nat.mod_lt _ (by omega)⟩,
      by simp only; omega, ?_⟩
    rintro ⟨bx, by', tx, ty⟩ ht ⟨h1, h2⟩
    obtain ⟨-, -, h3, h4⟩ := mem_threads.1 ht
    simp only at h1 h2 h3 h4
    simp only [Thread.mk.injEq]
    omega

example := C135_one_thread (ow := 100) (oh := 37) (by decide) (by decide)

open Classical in
/-- When no call of the CUDA library fails, the result is the warped image, whatever the order in which the threads run:
a pixel whose source position is inside the source image gets the interpolated value `g`, every other pixel is 0. Away
from the border of the source, `g` is the bicubic interpolation of the host; near the border it is a nearest pixel. The
buffers are never read or written outside. -/
theorem C135_warp (cv : Conv α) (zero : α) {img : Image α} {sw sh : Nat} {f : Nat → Nat → α} (s : img.Shows sw sh f)
    (hs : sw * sh < 2 ^ 31) (hsw : 0 < sw) (hsh : 0 < sh) :
    ∃ g : ℝ → ℝ → α,
      (∀ x y, Interior sw sh x y → bicubic cv zero img x y = .ok (g x y)) ∧
      (∀ x y, Within sw sh x y → ¬ Interior sw sh x y → ∃ i j, Nearest sw x i ∧ Nearest sh y j ∧ g x y = f i j) ∧
      ∀ (fails again : Call → Bool) (order : List Thread → List Thread) (eps : ℝ) (H : Mat ℝ)
        (M : Matrix (Fin 3) (Fin 3) ℝ) (ow oh : Nat),
        (∀ c, fails c = false) → (∀ l, (order l).Perm l) → H.Is M → 0 < ow → 0 < oh → ow * oh < 2 ^ 31 →
        oh ≤ 65535 * 16 →
        ∃ out, (warpCuda fails again order zero (bicubicDevice cv) eps img H ow oh).2 = .ok out ∧
          out.Shows ow oh (fun x y =>
            if |homog M (x : ℝ) (y : ℝ) 2| > eps ∧
              Within sw sh (project M (x : ℝ) (y : ℝ)).1 (project M (x : ℝ) (y : ℝ)).2 then
              g (project M (x : ℝ) (y : ℝ)).1 (project M (x : ℝ) (y : ℝ)).2 else zero) := by
  have hsw31 : sw < 2 ^ 31 := lt_of_le_of_lt (Nat.le_mul_of_pos_right sw hsh) hs
  have hsh31 : sh < 2 ^ 31 := lt_of_le_of_lt (Nat.le_mul_of_pos_left sh hsw) hs
  have tot : ∀ x y, ∃ v, Within sw sh x y → bicubicDevice cv img.data (sw : Int) (sh : Int) x y = .ok v := by
    intro x y
    by_cases hi : Interior sw sh x y
    · obtain ⟨v, hv⟩ := C42_never_out_of_range cv zero s x y
      exact ⟨v, fun _ => by rw [bicubicDevice_interior cv zero s hs hi, hv]⟩
    · by_cases hin : Within sw sh x y
      · obtain ⟨i, j, _, _, e⟩ := bicubicDevice_border cv s hs hin hi
        exact ⟨f i j, fun _ => e⟩
      · exact ⟨zero, fun h => absurd h hin⟩
  choose g hg using tot
  have within : ∀ x y, Interior sw sh x y → Within sw sh x y := fun x y h =>
    ⟨by linarith [h.1], by linarith [h.2.1], by linarith [h.2.2.1], by linarith [h.2.2.2]⟩
  refine ⟨g, ?_, ?_, ?_⟩
  · intro x y hi
    rw [← bicubicDevice_interior cv zero s hs hi, hg x y (within x y hi)]
  · intro x y hin hi
    obtain ⟨i, j, ni, nj, e⟩ := bicubicDevice_border cv s hs hin hi
    rw [hg x y hin] at e
    injection e with e
    exact ⟨i, j, ni, nj, e⟩
  · intro fails again order eps H M ow oh hf ho hH how hoh hwh hgrid
    have how31 : ow < 2 ^ 31 := lt_of_le_of_lt (Nat.le_mul_of_pos_right ow hoh) hwh
    have hoh31 : oh < 2 ^ 31 := lt_of_le_of_lt (Nat.le_mul_of_pos_left oh how) hwh
    have s0 : (⟨[ow, oh], List.replicate (wmul ow oh) zero⟩ : Image α).Shows ow oh (fun _ _ => zero) := by
      have hm : wmul ow oh = ow * oh := wmul_of_lt (by omega)
      refine Image.Shows.of_data (by omega) (by omega) (by omega) rfl (by simp [hm]) ?_
      intro x y hx hy
      have := idx_lt' hx hy
      simp only [List.getElem?_replicate, hm]
      rw [if_pos (by have := Nat.mul_comm ow y; omega)]
    obtain ⟨out, e, so⟩ := kernel_loop (interp := bicubicDevice cv) (g := g) (eps := eps) (M := M) hg hwh
      (order (threads (blocks ow) (blocks oh)))
      (fun t ht => by
        obtain ⟨h1, h2, h3, h4⟩ := mem_threads.1 ((ho _).mem_iff.1 ht)
        exact ⟨blocks_fit how31 h1 h3, blocks_fit hoh31 h2 h4⟩) s0
    have hl : launchable (blocks ow) (blocks oh) = true := by
      unfold launchable
      rw [blocks_eq how31, blocks_eq hoh31]
      simp only [Bool.and_eq_true, decide_eq_true_eq]
      omega
    refine ⟨⟨[ow, oh], out⟩, ?_, so.congr fun x y hx hy => ?_⟩
    · unfold warpCuda
      simp [calls, call, hf, readHom_ok hH, hl, s.width, s.height, toInt32_of_lt hsw31, toInt32_of_lt hsh31,
        toInt32_of_lt how31, toInt32_of_lt hoh31, e]
    · have : ∃ t ∈ order (threads (blocks ow) (blocks oh)), t.pos = (x, y) := by
        obtain ⟨t, ht, ⟨h1, h2⟩, -⟩ := (C135_one_thread how31 hoh31).2 x y hx hy
        exact ⟨t, (ho _).mem_iff.2 ht, Prod.ext h1 h2⟩
      simp only [this, true_and]

/-- The full claim would be that the warp on the graphics processor equals the sequential warp of the host with bicubic
interpolation. It holds when every pixel of the output has its source position away from the border of the source,
outside the source, or exactly on a pixel, and no denominator is exactly at the threshold. -/
theorem C135_same_as_cpu_partial (cv : Conv α) (hcv : cv.Lawful) (zero : α) {img : Image α} {sw sh : Nat}
    {f : Nat → Nat → α} (s : img.Shows sw sh f) (hs : sw * sh < 2 ^ 31) (hsw : 0 < sw) (hsh : 0 < sh)
    (fails again : Call → Bool) (order : List Thread → List Thread) (eps : ℝ) (H : Mat ℝ)
    (M : Matrix (Fin 3) (Fin 3) ℝ) (ow oh : Nat) (orderC : List (Nat × Nat))
    (hf : ∀ c, fails c = false) (ho : ∀ l, (order l).Perm l) (hoC : orderC.Perm (iterYX ow oh)) (hH : H.Is M)
    (how : 0 < ow) (hoh : 0 < oh) (hwh : ow * oh < 2 ^ 31) (hgrid : oh ≤ 65535 * 16)
    (heps : ∀ x y : Nat, x < ow → y < oh → |homog M (x : ℝ) (y : ℝ) 2| ≠ eps)
    (hpos : ∀ x y : Nat, x < ow → y < oh →
      Interior sw sh (project M (x : ℝ) (y : ℝ)).1 (project M (x : ℝ) (y : ℝ)).2 ∨
      ¬ Within sw sh (project M (x : ℝ) (y : ℝ)).1 (project M (x : ℝ) (y : ℝ)).2 ∨
      OnPixel sw sh (project M (x : ℝ) (y : ℝ)).1 (project M (x : ℝ) (y : ℝ)).2) :
    (warpCuda fails again order zero (bicubicDevice cv) eps img H ow oh).2 =
      warpSeq zero eps (bicubic cv zero img) H ow oh orderC := by
  obtain ⟨g, g1, g2, g3⟩ := C135_warp cv zero s hs hsw hsh
  obtain ⟨o1, e1, s1⟩ := g3 fails again order eps H M ow oh hf ho hH how hoh hwh hgrid
  have how31 : ow < 2 ^ 31 := lt_of_le_of_lt (Nat.le_mul_of_pos_right ow hoh) hwh
  have hoh31 : oh < 2 ^ 31 := lt_of_le_of_lt (Nat.le_mul_of_pos_left oh how) hwh
  choose k hk using C42_never_out_of_range cv zero s
  obtain ⟨o2, e2, s2⟩ := warpSeq_shows zero eps hk hH (w := ow) (h := oh) (by omega) (by omega) (by omega) hoC
  rw [e1, e2]
  congr 1
  refine Image.Shows.ext s1 s2 fun x y hx hy => ?_
  have hne := heps x y hx hy
  by_cases hw : |homog M (x : ℝ) (y : ℝ) 2| < eps
  · rw [if_pos hw, if_neg (by rintro ⟨h, -⟩; linarith)]
  · have hgt : |homog M (x : ℝ) (y : ℝ) 2| > eps := lt_of_le_of_ne (not_lt.1 hw) (Ne.symm hne)
    rw [if_neg hw]
    obtain ⟨⟨px, py⟩, hp⟩ : ∃ p, project M (x : ℝ) (y : ℝ) = p := ⟨_, rfl⟩
    have hq := hpos x y hx hy
    rw [hp] at hq ⊢
    simp only at hq ⊢
    by_cases hi : Interior sw sh px py
    · have hin : Within sw sh px py :=
        ⟨by linarith [hi.1], by linarith [hi.2.1], by linarith [hi.2.2.1], by linarith [hi.2.2.2]⟩
      rw [if_pos ⟨hgt, hin⟩]
      have := g1 px py hi
      rw [hk] at this
      injection this with this
      exact this.symm
    · rcases hq with hq | hq | hq
      · exact absurd hq hi
      · rw [if_neg (by rintro ⟨_, h⟩; exact hq h)]
        have : bicubic cv zero img px py = .ok zero := by
          unfold bicubic
          simp only [s.width, s.height]
          rw [if_pos (by
            by_contra hc
            push Not at hc
            exact hi ⟨hc.1, hc.2.1, hc.2.2.1, hc.2.2.2⟩)]
          refine C41_zero_outside cv zero s px py ?_
          by_contra hc
          push Not at hc
          exact hq ⟨hc.1, by linarith [hc.2.1], hc.2.2.1, by linarith [hc.2.2.2]⟩
        rw [hk] at this
        injection this with this
        exact this.symm
      · obtain ⟨i, j, hi', hj', rfl, rfl⟩ := hq
        have hin : Within sw sh (i : ℝ) (j : ℝ) :=
          ⟨by positivity, by exact_mod_cast hi', by positivity, by exact_mod_cast hj'⟩
        rw [if_pos ⟨hgt, hin⟩]
        obtain ⟨a, b, na, nb, e⟩ := g2 _ _ hin hi
        have near : ∀ n k c : Nat, k < n → Nearest n (k : ℝ) c → c = k := by
          intro n k c hk hc
          have := hc.2 k hk
          simp only [sub_self, abs_zero] at this
          have h0 := abs_eq_zero.1 (le_antisymm this (abs_nonneg _))
          have : (k : ℝ) = c := by linarith
          exact_mod_cast this.symm
        rw [e, near _ _ _ hi' na, near _ _ _ hj' nb]
        have := C42_exact_on_grid cv hcv zero s i j hi' hj'
        rw [hk] at this
        injection this with this
        exact this.symm

/-- A small matrix: shift by a quarter of a pixel. -/
noncomputable def quarterMat : Mat ℝ := ⟨3, 3, [1, 0, 1 / 4, 0, 1, 0, 0, 0, 1]⟩

theorem quarterMat_is : quarterMat.Is !![1, 0, 1 / 4; 0, 1, 0; 0, 0, 1] := by
  refine ⟨rfl, rfl, rfl, by norm_num, ?_⟩
  intro i j
  fin_cases i <;> fin_cases j <;> simp [quarterMat, Mat.get, wadd, wmul, W, vget]

/-- A row of two pixels, 0 and 100. -/
noncomputable def twoPixels : Image ℝ := ⟨[2, 1], [0, 100]⟩

theorem twoPixels_shows : twoPixels.Shows 2 1 (fun x _ => if x = 0 then 0 else 100) := by
  refine Image.Shows.of_data (by omega) (by omega) (by omega) rfl rfl ?_
  intro x y hx hy
  obtain rfl : y = 0 := by omega
  obtain rfl | rfl : x = 0 ∨ x = 1 := by omega
  · simp [twoPixels]
  · simp [twoPixels]

theorem quarter_homog (x y : ℝ) : homog !![1, 0, 1 / 4; 0, 1, 0; 0, 0, 1] x y 2 = 1 := by
  simp [homog, Matrix.mulVec, dotProduct, Fin.sum_univ_three]

theorem quarter_project (x y : ℝ) : project !![1, 0, 1 / 4; 0, 1, 0; 0, 0, 1] x y = (x + 1 / 4, y) := by
  simp [project, homog, Matrix.mulVec, dotProduct, Fin.sum_univ_three]

/-- The hypotheses of `C135_warp` can be met: a row of two pixels, the shift by a quarter of a pixel, one output pixel and
the threads in reverse order; the source position (1/4, 0) is near the border and gives the nearest pixel. -/
example : ∃ (g : ℝ → ℝ → ℝ) (out : Image ℝ), g (1 / 4) 0 = 0 ∧
    (warpCuda (fun _ => false) (fun _ => true) List.reverse 0 (bicubicDevice Conv.real) (1 / 1000) twoPixels quarterMat
      1 1).2 = .ok out ∧ out.at2 0 0 = .ok (g (1 / 4) 0) := by
  obtain ⟨g, -, g2, g3⟩ := C135_warp Conv.real 0 twoPixels_shows (by norm_num) (by norm_num) (by norm_num)
  obtain ⟨out, e, so⟩ := g3 (fun _ => false) (fun _ => true) List.reverse (1 / 1000) quarterMat _ 1 1 (fun _ => rfl)
    (fun l => l.reverse_perm) quarterMat_is (by norm_num) (by norm_num) (by norm_num) (by norm_num)
  have hin : Within 2 1 (1 / 4) 0 := by unfold Within; norm_num
  have hni : ¬ Interior 2 1 (1 / 4) 0 := by unfold Interior; norm_num
  obtain ⟨i, j, ni, -, e2⟩ := g2 _ _ hin hni
  have h0 : i = 0 := by
    have h1 := ni.1
    have h2 := ni.2 0 (by norm_num)
    obtain rfl | rfl : i = 0 ∨ i = 1 := by omega
    · rfl
    · norm_num [abs_le, abs_of_nonneg, abs_of_neg] at h2
  refine ⟨g, out, by rw [e2, h0]; simp, e, ?_⟩
  rw [so.px 0 0 (by norm_num) (by norm_num), quarter_homog, quarter_project, if_pos]
  · norm_num
  · refine ⟨by norm_num, ?_⟩
    norm_num
    exact hin

/-- The hypotheses of `C135_same_as_cpu_partial` can be met: a 5 by 5 image and a shift by (5/4, 5/4). -/
example : (warpCuda (fun _ => false) (fun _ => true) List.reverse 0 (bicubicDevice Conv.real) (1 / 1000)
      (Image.ofSizes (7 : ℝ) [5, 5]) ⟨3, 3, [1, 0, 5 / 4, 0, 1, 5 / 4, 0, 0, 1]⟩ 2 1).2 =
    warpSeq 0 (1 / 1000) (bicubic Conv.real 0 (Image.ofSizes (7 : ℝ) [5, 5]))
      ⟨3, 3, [1, 0, 5 / 4, 0, 1, 5 / 4, 0, 0, 1]⟩ 2 1 (iterYX 2 1) := by
  have hH : (⟨3, 3, [1, 0, 5 / 4, 0, 1, 5 / 4, 0, 0, 1]⟩ : Mat ℝ).Is !![1, 0, 5 / 4; 0, 1, 5 / 4; 0, 0, 1] := by
    refine ⟨rfl, rfl, rfl, by norm_num, ?_⟩
    intro i j
    fin_cases i <;> fin_cases j <;> simp [Mat.get, wadd, wmul, W, vget]
  have hh : ∀ x y : ℝ, homog !![1, 0, 5 / 4; 0, 1, 5 / 4; 0, 0, 1] x y 2 = 1 := fun x y => by
    simp [homog, Matrix.mulVec, dotProduct, Fin.sum_univ_three]
  have hp : ∀ x y : ℝ, project !![1, 0, 5 / 4; 0, 1, 5 / 4; 0, 0, 1] x y = (x + 5 / 4, y + 5 / 4) := fun x y => by
    simp [project, homog, Matrix.mulVec, dotProduct, Fin.sum_univ_three]
  refine C135_same_as_cpu_partial Conv.real conv_real_lawful 0
    (ofSizes_shows (7 : ℝ) (w := 5) (h := 5) (by norm_num) (by norm_num) (by norm_num)) (by norm_num) (by norm_num)
    (by norm_num) _ _ _ _ _ _ 2 1 _ (fun _ => rfl) (fun l => l.reverse_perm) (List.Perm.refl _) hH (by norm_num)
    (by norm_num) (by norm_num) (by norm_num) ?_ ?_
  · intro x y _ _
    rw [hh]; norm_num
  · intro x y hx hy
    left
    rw [hp]
    obtain rfl : y = 0 := by omega
    obtain rfl | rfl : x = 0 ∨ x = 1 := by omega
    · unfold Interior; norm_num
    · unfold Interior; norm_num

/-- Near the border the two versions differ: the source position (1/4, 0) of a row 0, 100 gives 0 on the graphics
processor and 25 on the host. -/
theorem C135_border_violation :
    ∃ (img : Image ℝ) (H : Mat ℝ) (out out' : Image ℝ),
      (warpCuda (fun _ => false) (fun _ => true) id 0 (bicubicDevice Conv.real) (1 / 1000) img H 1 1).2 = .ok out ∧
      warpSeq 0 (1 / 1000) (bicubic Conv.real 0 img) H 1 1 (iterYX 1 1) = .ok out' ∧
      out.at2 0 0 = .ok 0 ∧ out'.at2 0 0 = .ok 25 := by
  refine ⟨twoPixels, quarterMat, ?_⟩
  obtain ⟨g, -, g2, g3⟩ := C135_warp Conv.real 0 twoPixels_shows (by norm_num) (by norm_num) (by norm_num)
  obtain ⟨out, e, so⟩ := g3 (fun _ => false) (fun _ => true) id (1 / 1000) quarterMat _ 1 1 (fun _ => rfl)
    (fun l => List.Perm.refl _) quarterMat_is (by norm_num) (by norm_num) (by norm_num) (by norm_num)
  choose k hk using C42_never_out_of_range Conv.real 0 twoPixels_shows
  obtain ⟨o2, e2, s2⟩ := warpSeq_shows (0 : ℝ) (1 / 1000) hk quarterMat_is (w := 1) (h := 1) (by norm_num)
    (by norm_num) (by norm_num) (List.Perm.refl _)
  have hin : Within 2 1 (1 / 4) 0 := by unfold Within; norm_num
  have hni : ¬ Interior 2 1 (1 / 4) 0 := by unfold Interior; norm_num
  obtain ⟨i, j, ni, -, e3⟩ := g2 _ _ hin hni
  have h0 : i = 0 := by
    have h1 := ni.1
    have h2 := ni.2 0 (by norm_num)
    obtain rfl | rfl : i = 0 ∨ i = 1 := by omega
    · rfl
    · norm_num [abs_le, abs_of_nonneg, abs_of_neg] at h2
  refine ⟨out, o2, e, e2, ?_, ?_⟩
  · rw [so.px 0 0 (by norm_num) (by norm_num), quarter_homog, quarter_project, if_pos]
    · norm_num
      rw [e3, h0]; simp
    · refine ⟨by norm_num, ?_⟩
      norm_num
      exact hin
  · rw [s2.px 0 0 (by norm_num) (by norm_num), quarter_homog, quarter_project, if_neg (by norm_num)]
    have hb : bicubic Conv.real 0 twoPixels (1 / 4) 0 = .ok 25 := by
      unfold bicubic
      simp only [twoPixels_shows.width, twoPixels_shows.height]
      rw [if_pos (by norm_num),
        bilinear_inside Conv.real 0 twoPixels_shows (by norm_num) (by norm_num) (by norm_num) (by norm_num)]
      norm_num [Conv.real]
    rw [hk] at hb
    simpa using hb

/-- An output without pixels makes the version for the graphics processor throw, and with an empty matrix its behaviour is
undefined (the matrix is read outside); the host returns an image. -/
theorem C135_empty_violation (fails again : Call → Bool) (order : List Thread → List Thread) (cv : Conv α) (zero : α)
    (eps : ℝ) (img : Image α) (H : Mat ℝ) (ow oh : Nat) (hf : ∀ c, fails c = false) :
    ((∃ M : Matrix (Fin 3) (Fin 3) ℝ, H.Is M) → ow = 0 ∨ oh = 0 → ∃ e, (warpCuda fails again order zero (bicubicDevice cv) eps img H ow oh).2 = .throw e) ∧
    (H.rows = 0 → H.cols = 0 → H.data = [] →
      (warpCuda fails again order zero (bicubicDevice cv) eps img H ow oh).2 = .ub ∧
      ∃ out, warpSeq zero eps (bicubic cv zero img) H ow oh (iterYX ow oh) = .ok out ∧ out.size = [ow, oh]) := by
  constructor
  · rintro ⟨M, hM⟩ h0
    have hl : launchable (blocks ow) (blocks oh) = false := by
      have b0 : blocks 0 = 0 := rfl
      rcases h0 with rfl | rfl <;> simp [launchable, b0]
    refine ⟨.runtime, ?_⟩
    unfold warpCuda
    simp [calls, call, hf, readHom_ok hM, hl]
  · intro hr hc hd
    refine ⟨?_, ?_⟩
    · have : readHom H = .ub := by simp [readHom, Mat.get, hd, vget]
      unfold warpCuda
      simp [calls, call, hf, this]
    · refine ⟨Image.ofSizes zero [ow, oh], ?_, rfl⟩
      unfold warpSeq
      simp [Mat.isEmpty, hr]

/-! ## C136: device memory -/

/-- The calls of the wrapper with the launch replaced by any action on the output buffer. -/
def program (L : Dev α → Res (Dev α)) (data : List α) (blank : List α) : List (Call × (Dev α → Res (Dev α))) :=
  [(.mallocSrc, fun d => .ok { d with srcPtr := true }),
   (.mallocOut, fun d => .ok { d with outPtr := true }),
   (.copyIn, fun d => .ok { d with src := data }),
   (.clear, fun d => .ok { d with out := blank }),
   (.launch, L),
   (.sync, fun d => .ok d),
   (.copyOut, fun d => .ok d),
   (.freeSrc, fun d => .ok { d with srcFreed := d.srcFreed + 1 }),
   (.freeOut, fun d => .ok { d with outFreed := d.outFreed + 1 })]

theorem calls_cons_fail {fails : Call → Bool} {c : Call} {act : Dev α → Res (Dev α)}
    {cs : List (Call × (Dev α → Res (Dev α)))} {d : Dev α} (h : fails c = true) :
    calls fails ((c, act) :: cs) d = (d, .throw .runtime) := by simp [calls, call, h]

theorem calls_cons_ok {fails : Call → Bool} {c : Call} {act : Dev α → Res (Dev α)}
    {cs : List (Call × (Dev α → Res (Dev α)))} {d d' : Dev α} (h : fails c = false) (ha : act d = .ok d') :
    calls fails ((c, act) :: cs) d = calls fails cs d' := by simp [calls, call, h, ha]

theorem calls_cons_pure {fails : Call → Bool} {c : Call} {k : Dev α → Dev α}
    {cs : List (Call × (Dev α → Res (Dev α)))} {d : Dev α} (h : fails c = false) :
    calls fails ((c, fun d => .ok (k d)) :: cs) d = calls fails cs (k d) := by simp [calls, call, h]

/-- How the calls of the wrapper can end. -/
theorem program_run (fails : Call → Bool) {L : Dev α → Res (Dev α)} (hL : ∀ d d', L d = .ok d' → ∃ o, d' = { d with out := o })
    (data blank : List α) :
    ∃ d r, calls fails (program L data blank) ⟨false, false, 0, 0, [], []⟩ = (d, r) ∧
      d.srcPtr = !fails .mallocSrc ∧ d.outPtr = (!fails .mallocSrc && !fails .mallocOut) ∧
      (r = .ok () → (∀ c, fails c = false) ∧ d.srcFreed = 1 ∧ d.outFreed = 1) ∧
      (∀ e, r = .throw e → fails .freeOut = false → d.srcFreed = 0 ∧ d.outFreed = 0) := by
  unfold program
  cases h1 : fails .mallocSrc
  case true => rw [calls_cons_fail h1]; refine ⟨_, _, rfl, rfl, rfl, by simp, fun _ _ _ => ⟨rfl, rfl⟩⟩
  rw [calls_cons_pure h1]
  cases h2 : fails .mallocOut
  case true => rw [calls_cons_fail h2]; refine ⟨_, _, rfl, rfl, rfl, by simp, fun _ _ _ => ⟨rfl, rfl⟩⟩
  rw [calls_cons_pure h2]
  cases h3 : fails .copyIn
  case true => rw [calls_cons_fail h3]; refine ⟨_, _, rfl, rfl, rfl, by simp, fun _ _ _ => ⟨rfl, rfl⟩⟩
  rw [calls_cons_pure h3]
  cases h4 : fails .clear
  case true => rw [calls_cons_fail h4]; refine ⟨_, _, rfl, rfl, rfl, by simp, fun _ _ _ => ⟨rfl, rfl⟩⟩
  rw [calls_cons_pure h4]
  cases h5 : fails .launch
  case true => rw [calls_cons_fail h5]; refine ⟨_, _, rfl, rfl, rfl, by simp, fun _ _ _ => ⟨rfl, rfl⟩⟩
  cases hl : L ⟨true, true, 0, 0, data, blank⟩ with
  | throw e => simp [calls, call, h5, hl]
  | ub => simp [calls, call, h5, hl]
  | ok d' =>
    obtain ⟨o, rfl⟩ := hL _ _ hl
    rw [calls_cons_ok h5 hl]
    cases h6 : fails .sync
    case true => rw [calls_cons_fail h6]; refine ⟨_, _, rfl, rfl, rfl, by simp, fun _ _ _ => ⟨rfl, rfl⟩⟩
    rw [calls_cons_pure h6]
    cases h7 : fails .copyOut
    case true => rw [calls_cons_fail h7]; refine ⟨_, _, rfl, rfl, rfl, by simp, fun _ _ _ => ⟨rfl, rfl⟩⟩
    rw [calls_cons_pure h7]
    cases h8 : fails .freeSrc
    case true => rw [calls_cons_fail h8]; refine ⟨_, _, rfl, rfl, rfl, by simp, fun _ _ _ => ⟨rfl, rfl⟩⟩
    rw [calls_cons_pure h8]
    cases h9 : fails .freeOut
    case true => rw [calls_cons_fail h9]; refine ⟨_, _, rfl, rfl, rfl, by simp, fun _ _ h => by simp at h⟩
    rw [calls_cons_pure h9]
    refine ⟨_, _, rfl, rfl, rfl, fun _ => ⟨fun c => by cases c <;> assumption, rfl, rfl⟩, fun _ h => by simp [calls] at h⟩

/-- The outcome of the wrapper in terms of the outcome of its calls. -/
theorem warpCuda_run (fails again : Call → Bool) (order : List Thread → List Thread) (zero : α)
    (interp : List α → Int → Int → ℝ → ℝ → Res α) (eps : ℝ) (img : Image α) (H : Mat ℝ) (ow oh : Nat) :
    ∃ (d : Dev α) (r : Res Unit),
      d.srcPtr = !fails .mallocSrc ∧ d.outPtr = (!fails .mallocSrc && !fails .mallocOut) ∧
      (r = .ok () → (∀ c, fails c = false) ∧ d.srcFreed = 1 ∧ d.outFreed = 1) ∧
      (∀ e, r = .throw e → fails .freeOut = false → d.srcFreed = 0 ∧ d.outFreed = 0) ∧
      warpCuda fails again order zero interp eps img H ow oh =
        (match r with
         | .ok () => (d, .ok ⟨[ow, oh], d.out⟩)
         | .throw e => (cleanup again d, .throw e)
         | .ub => (d, .ub)) := by
  obtain ⟨d, r, e, h1, h2, h3, h4⟩ := program_run fails (L := fun d => do
       let m ← readHom H
       if launchable (blocks ow) (blocks oh) then do
         let out ← loop (kernel interp eps m d.src (toInt32 img.width) (toInt32 img.height) (toInt32 ow) (toInt32 oh))
           (order (threads (blocks ow) (blocks oh))) d.out
         .ok { d with out := out }
       else .throw .runtime) (by
    intro d d' h
    cases hr : readHom H with
    | throw e => simp [hr] at h
    | ub => simp [hr] at h
    | ok m =>
      simp only [hr, Res.ok_bind] at h
      split at h
      · cases hk : loop (kernel interp eps m d.src (toInt32 img.width) (toInt32 img.height) (toInt32 ow) (toInt32 oh))
           (order (threads (blocks ow) (blocks oh))) d.out with
        | throw e => simp [hk] at h
        | ub => simp [hk] at h
        | ok out => simp only [hk, Res.ok_bind, Res.ok.injEq] at h; exact ⟨out, h.symm⟩
      · simp at h) img.data (List.replicate (wmul ow oh) zero)
  refine ⟨d, r, h1, h2, h3, h4, ?_⟩
  unfold program at e
  unfold warpCuda
  simp only
  rw [e]
  cases r <;> rfl

/-- When some call fails (the others behave in any way), the caller does not get an image. -/
theorem C136_failure_reported (fails again : Call → Bool) (order : List Thread → List Thread) (zero : α)
    (interp : List α → Int → Int → ℝ → ℝ → Res α) (eps : ℝ) (img : Image α) (H : Mat ℝ) (ow oh : Nat) (c : Call)
    (hc : fails c = true) :
    ∀ out, (warpCuda fails again order zero interp eps img H ow oh).2 ≠ .ok out := by
  obtain ⟨d, r, h1, h2, h3, h4, e⟩ := warpCuda_run fails again order zero interp eps img H ow oh
  intro out h
  rw [e] at h
  cases r with
  | ok u => have := (h3 rfl).1 c; rw [hc] at this; cases this
  | throw e => cases h
  | ub => cases h

/-- The full claim would be that each device buffer that was allocated is released exactly once, and a buffer that was not
allocated never, whichever calls fail. It holds unless it is the last release that fails, provided that the releases
made after a failure succeed. -/
theorem C136_released_partial (fails again : Call → Bool) (order : List Thread → List Thread) (zero : α)
    (interp : List α → Int → Int → ℝ → ℝ → Res α) (eps : ℝ) (img : Image α) (H : Mat ℝ) (ow oh : Nat)
    (hlast : fails .freeOut = false) (ha : ∀ c, again c = true)
    (hub : (warpCuda fails again order zero interp eps img H ow oh).2 ≠ .ub) :
    (warpCuda fails again order zero interp eps img H ow oh).1.srcFreed = (if fails .mallocSrc then 0 else 1) ∧
    (warpCuda fails again order zero interp eps img H ow oh).1.outFreed =
      (if fails .mallocSrc || fails .mallocOut then 0 else 1) := by
  obtain ⟨d, r, h1, h2, h3, h4, e⟩ := warpCuda_run fails again order zero interp eps img H ow oh
  rw [e] at hub ⊢
  cases r with
  | ub => exact absurd rfl hub
  | ok u =>
    obtain ⟨a, b, c⟩ := h3 rfl
    simp [a, b, c]
  | throw ex =>
    obtain ⟨a, b⟩ := h4 ex rfl hlast
    simp only [cleanup, ha, h1, h2, a, b]
    cases fails .mallocSrc <;> cases fails .mallocOut <;> simp

/-- The launch succeeds. -/
theorem launch_ok (cv : Conv α) (zero : α) {img : Image α} {sw sh : Nat} {f : Nat → Nat → α} (s : img.Shows sw sh f)
    (hs : sw * sh < 2 ^ 31) (hsw : 0 < sw) (hsh : 0 < sh) (order : List Thread → List Thread) (eps : ℝ) {H : Mat ℝ}
    {M : Matrix (Fin 3) (Fin 3) ℝ} {ow oh : Nat} (ho : ∀ l, (order l).Perm l) (hH : H.Is M) (how : 0 < ow) (hoh : 0 < oh)
    (hwh : ow * oh < 2 ^ 31) (hgrid : oh ≤ 65535 * 16) :
    ∃ out, (do
       let m ← readHom H
       if launchable (blocks ow) (blocks oh) then do
         let out ← loop (kernel (bicubicDevice cv) eps m img.data (toInt32 img.width) (toInt32 img.height) (toInt32 ow)
           (toInt32 oh)) (order (threads (blocks ow) (blocks oh))) (List.replicate (wmul ow oh) zero)
         .ok (⟨true, true, 0, 0, img.data, out⟩ : Dev α)
       else .throw .runtime) = .ok ⟨true, true, 0, 0, img.data, out⟩ := by
  obtain ⟨g, -, -, g3⟩ := C135_warp cv zero s hs hsw hsh
  obtain ⟨out, e, -⟩ := g3 (fun _ => false) (fun _ => true) order eps H M ow oh (fun _ => rfl) ho hH how hoh hwh hgrid
  have how31 : ow < 2 ^ 31 := lt_of_le_of_lt (Nat.le_mul_of_pos_right ow hoh) hwh
  have hoh31 : oh < 2 ^ 31 := lt_of_le_of_lt (Nat.le_mul_of_pos_left oh how) hwh
  have hl : launchable (blocks ow) (blocks oh) = true := by
    unfold launchable
    rw [blocks_eq how31, blocks_eq hoh31]
    simp only [Bool.and_eq_true, decide_eq_true_eq]
    omega
  rw [readHom_ok hH, Res.ok_bind, if_pos hl]
  unfold warpCuda at e
  cases hk : loop (kernel (bicubicDevice cv) eps (homOf M) img.data (toInt32 img.width) (toInt32 img.height) (toInt32 ow)
      (toInt32 oh)) (order (threads (blocks ow) (blocks oh))) (List.replicate (wmul ow oh) zero) with
  | ok out => exact ⟨out, by rw [Res.ok_bind]⟩
  | throw ex => simp [calls, call, readHom_ok hH, hl, hk] at e
  | ub => simp [calls, call, readHom_ok hH, hl, hk] at e

/-- The hypotheses of `C136_released_partial` can be met by a run in which a call fails after both allocations. -/
example : (warpCuda (fun c => c == .copyOut) (fun _ => true) id 0 (bicubicDevice Conv.real) (1 / 1000) twoPixels
      quarterMat 1 1).2 = .throw .runtime := by
  obtain ⟨o, e⟩ := launch_ok Conv.real 0 twoPixels_shows (by norm_num) (by norm_num) (by norm_num) id (1 / 1000)
    (fun _ => List.Perm.refl _) quarterMat_is (ow := 1) (oh := 1) (by norm_num) (by norm_num) (by norm_num) (by norm_num)
  unfold warpCuda
  simp only [id_eq] at e ⊢
  rw [calls_cons_pure rfl, calls_cons_pure rfl, calls_cons_pure rfl, calls_cons_pure rfl, calls_cons_ok rfl e,
    calls_cons_pure rfl, calls_cons_fail rfl]

/-- When the last release fails, the source buffer, already released, is released again. -/
theorem C136_double_release_violation :
    ∃ (img : Image ℝ) (H : Mat ℝ),
      let r := warpCuda (fun c => c == .freeOut) (fun _ => true) id 0 (bicubicDevice Conv.real) (1 / 1000) img H 1 1
      r.2 = .throw .runtime ∧ r.1.srcFreed = 2 := by
  refine ⟨twoPixels, quarterMat, ?_⟩
  obtain ⟨o, e⟩ := launch_ok Conv.real 0 twoPixels_shows (by norm_num) (by norm_num) (by norm_num) id (1 / 1000)
    (fun _ => List.Perm.refl _) quarterMat_is (ow := 1) (oh := 1) (by norm_num) (by norm_num) (by norm_num) (by norm_num)
  unfold warpCuda
  simp only [id_eq] at e ⊢
  rw [calls_cons_pure rfl, calls_cons_pure rfl, calls_cons_pure rfl, calls_cons_pure rfl, calls_cons_ok rfl e,
    calls_cons_pure rfl, calls_cons_pure rfl, calls_cons_pure rfl, calls_cons_fail rfl]
  exact ⟨rfl, rfl⟩

example (out : Image ℝ) : (warpCuda (fun c => c == .copyOut) (fun _ => true) id 0 (bicubicDevice Conv.real) (1 / 1000)
    twoPixels quarterMat 1 1).2 ≠ .ok out :=
  C136_failure_reported _ _ _ _ _ _ _ _ _ _ .copyOut rfl out

end TinyDIP.Cuda
