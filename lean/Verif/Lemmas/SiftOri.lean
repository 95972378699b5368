import Verif.Lemmas.Sift
import Verif.Lemmas.Hist
import Verif.Spec.Sift
import Mathlib.Algebra.BigOperators.Intervals
import Mathlib.Tactic.Positivity
import Mathlib.Tactic.Linarith

/-!
# Lemmas about orientations and descriptors
-/

namespace TinyDIP.Sift

open TinyDIP Image

/-! ### One pixel -/

theorem orientation_ok {im : Image ℝ} {W H : Nat} {f : Nat → Nat → ℝ} (s : im.Shows W H f)
    (hW : W < 2 ^ 64 - 2) (hH : H < 2 ^ 64 - 2) {x y : Nat} (hx : x < W) (hy : y < H) :
    ∃ sub, subimage2d im 0 3 3 x y 0 = .ok sub ∧
      pixelOrientation sub = .ok (magnitude f W H x y, direction f W H x y) := by
  obtain ⟨out, e, so⟩ := subimage2d_shows 0 s (w := 3) (h := 3) (cx := x) (cy := y) (by omega) (by omega)
    (by omega) (by omega) (by omega) (by omega) (by omega) 0
  refine ⟨out, e, ?_⟩
  unfold pixelOrientation
  rw [if_neg (by simp [so.dim]), if_neg (by simp [so.width, so.height]), so.at2u (by omega) (by omega),
    so.at2u (by omega) (by omega), so.at2u (by omega) (by omega), so.at2u (by omega) (by omega)]
  simp only [Res.ok_bind]
  have a1 : (if (3 / 2 ≤ x + 2 ∧ x + 2 - 3 / 2 < W) ∧ 3 / 2 ≤ y + 1 ∧ y + 1 - 3 / 2 < H
      then f (x + 2 - 3 / 2) (y + 1 - 3 / 2) else 0) = if x + 1 < W then f (x + 1) y else 0 := by
    have e1 : x + 2 - 3 / 2 = x + 1 := by omega
    have e2 : y + 1 - 3 / 2 = y := by omega
    rw [e1, e2]
    by_cases h : x + 1 < W
    · rw [if_pos h, if_pos (by omega)]
    · rw [if_neg h, if_neg (by omega)]
  have a2 : (if (3 / 2 ≤ x + 0 ∧ x + 0 - 3 / 2 < W) ∧ 3 / 2 ≤ y + 1 ∧ y + 1 - 3 / 2 < H
      then f (x + 0 - 3 / 2) (y + 1 - 3 / 2) else 0) = if 1 ≤ x then f (x - 1) y else 0 := by
    have e1 : x + 0 - 3 / 2 = x - 1 := by omega
    have e2 : y + 1 - 3 / 2 = y := by omega
    rw [e1, e2]
    by_cases h : 1 ≤ x
    · rw [if_pos h, if_pos (by omega)]
    · rw [if_neg h, if_neg (by omega)]
  have a3 : (if (3 / 2 ≤ x + 1 ∧ x + 1 - 3 / 2 < W) ∧ 3 / 2 ≤ y + 2 ∧ y + 2 - 3 / 2 < H
      then f (x + 1 - 3 / 2) (y + 2 - 3 / 2) else 0) = if y + 1 < H then f x (y + 1) else 0 := by
    have e1 : x + 1 - 3 / 2 = x := by omega
    have e2 : y + 2 - 3 / 2 = y + 1 := by omega
    rw [e1, e2]
    by_cases h : y + 1 < H
    · rw [if_pos h, if_pos (by omega)]
    · rw [if_neg h, if_neg (by omega)]
  have a4 : (if (3 / 2 ≤ x + 1 ∧ x + 1 - 3 / 2 < W) ∧ 3 / 2 ≤ y + 0 ∧ y + 0 - 3 / 2 < H
      then f (x + 1 - 3 / 2) (y + 0 - 3 / 2) else 0) = if 1 ≤ y then f x (y - 1) else 0 := by
    have e1 : x + 1 - 3 / 2 = x := by omega
    have e2 : y + 0 - 3 / 2 = y - 1 := by omega
    rw [e1, e2]
    by_cases h : 1 ≤ y
    · rw [if_pos h, if_pos (by omega)]
    · rw [if_neg h, if_neg (by omega)]
  rw [a1, a2, a3, a4]
  unfold magnitude direction diffX diffY
  simp only [sq]

theorem direction_pos (f : Nat → Nat → ℝ) (W H x y : Nat) : 0 < direction f W H x y := by
  unfold direction
  have h := Complex.neg_pi_lt_arg ⟨diffX f W x y, diffY f H x y⟩
  have hp := Real.pi_pos
  have : Complex.arg ⟨diffX f W x y, diffY f H x y⟩ * (180 / Real.pi) > -Real.pi * (180 / Real.pi) :=
    mul_lt_mul_of_pos_right h (by positivity)
  have e : -Real.pi * (180 / Real.pi) = -180 := by field_simp
  linarith

theorem direction_le (f : Nat → Nat → ℝ) (W H x y : Nat) : direction f W H x y ≤ 360 := by
  unfold direction
  have h := Complex.arg_le_pi ⟨diffX f W x y, diffY f H x y⟩
  have hp := Real.pi_pos
  have : Complex.arg ⟨diffX f W x y, diffY f H x y⟩ * (180 / Real.pi) ≤ Real.pi * (180 / Real.pi) :=
    mul_le_mul_of_nonneg_right h (by positivity)
  have e : Real.pi * (180 / Real.pi) = 180 := by field_simp
  linarith

theorem magnitude_nonneg (f : Nat → Nat → ℝ) (W H x y : Nat) : 0 ≤ magnitude f W H x y := Real.sqrt_nonneg _

theorem toSize_floor {v : ℝ} (h0 : 0 ≤ v) (h1 : v < 2 ^ 64) : toSize v = .ok ⌊v⌋₊ := by
  unfold toSize
  rw [if_pos ⟨by linarith, h1⟩, Int.floor_toNat]

theorem bin10 (f : Nat → Nat → ℝ) (W H x y : Nat) : ⌊direction f W H x y / 10⌋₊ < 37 := by
  have := direction_pos f W H x y
  have := direction_le f W H x y
  rw [Nat.floor_lt (by positivity)]
  norm_num
  linarith

theorem bin45 {d : ℝ} (h0 : 0 ≤ d) (h : d ≤ 360) : ⌊d / 45⌋₊ ≤ 8 := by
  have : ⌊d / 45⌋₊ < 9 := by
    rw [Nat.floor_lt (by positivity)]
    norm_num
    linarith
  omega

/-! ### Accumulating loops -/

theorem loop_hist {β : Type} (n : Nat) (body : List ℝ → β → Res (List ℝ)) (c : β → Nat → ℝ) (l : List β)
    (hstep : ∀ p ∈ l, ∀ hist : List ℝ, hist.length = n → ∃ hist', body hist p = .ok hist' ∧
      hist'.length = n ∧ ∀ b < n, hist'.getD b 0 = hist.getD b 0 + c p b)
    (hist : List ℝ) (hn : hist.length = n) :
    ∃ out, loop body l hist = .ok out ∧ out.length = n ∧
      ∀ b < n, out.getD b 0 = hist.getD b 0 + (l.map fun p => c p b).sum := by
  induction l generalizing hist with
  | nil => exact ⟨hist, rfl, hn, fun b _ => by simp⟩
  | cons p l ih =>
    obtain ⟨h1, e1, n1, v1⟩ := hstep p (by simp) hist hn
    obtain ⟨out, e2, n2, v2⟩ := ih (fun p hp => hstep p (by simp [hp])) h1 n1
    refine ⟨out, by rw [loop, e1]; exact e2, n2, fun b hb => ?_⟩
    rw [v2 b hb, v1 b hb]
    simp [add_assoc]

theorem hist_add {hist : List ℝ} {n k : Nat} (hn : hist.length = n) (hk : k < n) (m : ℝ) :
    ∃ hist', (do
      let v ← vget hist k
      vset hist k (v + m)) = .ok hist' ∧ hist'.length = n ∧
      ∀ b < n, hist'.getD b 0 = hist.getD b 0 + if k = b then m else 0 := by
  have hk' : k < hist.length := by omega
  refine ⟨hist.set k (hist[k] + m), ?_, by simpa using hn, fun b hb => ?_⟩
  · rw [vget_eq_ok hk']
    simp only [Res.ok_bind]
    exact vset_eq_ok _ hk'
  · have hb' : b < hist.length := by omega
    by_cases h : k = b
    · subst h
      simp [List.getD_eq_getElem?_getD, hk']
    · simp [List.getD_eq_getElem?_getD, h]

theorem sum_range' (a n : Nat) (g : Nat → ℝ) :
    ((List.range' a n).map g).sum = ∑ i ∈ Finset.Ico a (a + n), g i := by
  induction n with
  | zero => simp
  | succ n ih =>
    rw [List.range'_concat, List.map_append, List.sum_append, ih, ← Nat.add_assoc, Finset.sum_Ico_succ_top (by omega)]
    simp

theorem replicate_getD (n b : Nat) : (List.replicate n (0 : ℝ)).getD b 0 = 0 := by
  rw [List.getD_eq_getElem?_getD, List.getElem?_replicate]
  split <;> rfl

/-! ### The orientation histogram -/

theorem orientationHistogram_ok {im : Image ℝ} {W H : Nat} {f : Nat → Nat → ℝ} (s : im.Shows W H f)
    (hW : W < 2 ^ 64 - 2) (hH : H < 2 ^ 64 - 2) {px py block : Nat} (hx : block ≤ px) (hy : block ≤ py)
    (hx' : px + block < 2 ^ 64) (hy' : py + block < 2 ^ 64) :
    ∃ hist, orientationHistogram im px py block = .ok hist ∧ hist.length = 37 ∧
      ∀ b < 37, hist.getD b 0 = ∑ y ∈ Finset.Icc (py - block) (py + block),
        ∑ x ∈ Finset.Icc (px - block) (px + block), share f W H (fun d => ⌊d / 10⌋₊) b x y := by
  unfold orientationHistogram
  rw [if_neg (by simp [s.dim])]
  rw [wsub_of_le hx (by omega), wsub_of_le hy (by omega), wadd_of_lt hx', wadd_of_lt hy']
  have inner : ∀ y (hist : List ℝ), hist.length = 37 → ∃ out, loop (fun hist x =>
      if x ≥ im.width ∨ y ≥ im.height then Res.ok hist
      else do
        let sub ← subimage2d im 0 3 3 x y 0
        let o ← pixelOrientation sub
        let bin ← toSize (o.2 / 10)
        let v ← vget hist bin
        vset hist bin (v + o.1)) (upTo (px - block) (px + block)) hist = .ok out ∧ out.length = 37 ∧
      ∀ b < 37, out.getD b 0 = hist.getD b 0 +
        ((upTo (px - block) (px + block)).map fun x => share f W H (fun d => ⌊d / 10⌋₊) b x y).sum := by
    intro y hist hn
    refine loop_hist 37 _ (fun x b => share f W H (fun d => ⌊d / 10⌋₊) b x y) _ ?_ hist hn
    intro x _ hist hn
    rw [s.width, s.height]
    by_cases hc : x ≥ W ∨ y ≥ H
    · rw [if_pos hc]
      refine ⟨hist, rfl, hn, fun b _ => ?_⟩
      unfold share
      rw [if_neg (by omega)]
      simp
    · rw [if_neg hc]
      obtain ⟨sub, e1, e2⟩ := orientation_ok s hW hH (x := x) (y := y) (by omega) (by omega)
      obtain ⟨hist', e3, n3, v3⟩ := hist_add hn (bin10 f W H x y) (magnitude f W H x y)
      refine ⟨hist', ?_, n3, fun b hb => ?_⟩
      · have hp := direction_pos f W H x y
        have hle := direction_le f W H x y
        rw [e1]
        simp only [Res.ok_bind, e2]
        rw [toSize_floor (by positivity) (by norm_num; linarith)]
        simp only [Res.ok_bind]
        exact e3
      · rw [v3 b hb]
        unfold share
        have hin : x < W ∧ y < H := by omega
        by_cases hb' : ⌊direction f W H x y / 10⌋₊ = b
        · rw [if_pos hb', if_pos ⟨hin.1, hin.2, hb'⟩]
        · rw [if_neg hb', if_neg (fun h => hb' h.2.2)]
  obtain ⟨out, e, n, v⟩ := loop_hist 37 _
    (fun y b => ((upTo (px - block) (px + block)).map fun x => share f W H (fun d => ⌊d / 10⌋₊) b x y).sum)
    (upTo (py - block) (py + block)) (fun y _ hist hn => inner y hist hn) (List.replicate 37 0) (by simp)
  refine ⟨out, e, n, fun b hb => ?_⟩
  rw [v b hb]
  rw [replicate_getD, zero_add]
  have hu : ∀ (p : Nat), block ≤ p → ∀ g : Nat → ℝ, ((upTo (p - block) (p + block)).map g).sum =
      ∑ i ∈ Finset.Icc (p - block) (p + block), g i := by
    intro p hp g
    unfold upTo
    rw [if_pos (by omega), sum_range']
    refine Finset.sum_congr ?_ fun _ _ => rfl
    ext i
    simp only [Finset.mem_Ico, Finset.mem_Icc]
    omega
  rw [hu py hy]
  exact Finset.sum_congr rfl fun y _ => hu px hx _

theorem loop_id {σ β : Type} (body : σ → β → Res σ) (l : List β) (h : ∀ b ∈ l, ∀ s, body s b = .ok s) (s : σ) :
    loop body l s = .ok s := by
  induction l with
  | nil => rfl
  | cons b l ih =>
    rw [loop, h b (by simp) s]
    exact ih fun b hb => h b (by simp [hb])

theorem orientationHistogram_border {im : Image ℝ} (hd : im.dim = 2) {px py block : Nat}
    (hxy : px < block ∨ py < block) (hb : block < 2 ^ 63) :
    orientationHistogram im px py block = .ok (List.replicate 37 0) := by
  have empty : ∀ p, p < block → upTo (wsub p block) (wadd p block) = [] := by
    intro p hp
    unfold upTo
    rw [wsub_of_gt hp (by omega), wadd_of_lt (by omega), if_neg (by omega)]
  unfold orientationHistogram
  rw [if_neg (by simp [hd])]
  rcases hxy with h | h
  · rw [empty px h]
    exact loop_id _ _ (fun _ _ _ => rfl) _
  · rw [empty py h]
    rfl

/-! ### The descriptor -/

theorem loop_filter {σ β : Type} (c : β → Bool) (body : σ → β → Res σ) (l : List β)
    (h : ∀ b ∈ l, c b = false → ∀ s, body s b = .ok s) (s : σ) :
    loop body l s = loop body (l.filter c) s := by
  induction l generalizing s with
  | nil => rfl
  | cons b l ih =>
    by_cases hc : c b = true
    · rw [List.filter_cons_of_pos hc, loop, loop]
      cases body s b <;> simp [ih fun b hb => h b (by simp [hb])]
    · rw [List.filter_cons_of_neg hc, loop, h b (by simp) (by simpa using hc) s]
      exact ih (fun b hb => h b (by simp [hb])) s

theorem wadd_wsub {x c b : Nat} (h : c ≤ x + b) (hx : x < 2 ^ 64) (hc : c < 2 ^ 64) (hb : x + b < 2 ^ 64) :
    wadd (wsub x c) b = x + b - c := by
  by_cases hxc : c ≤ x
  · rw [wsub_of_le hxc hx, wadd_of_lt (by omega)]
    omega
  · rw [wsub_of_gt (by omega) hc]
    unfold wadd W
    omega

/-- What `pixel_orientations` holds. -/
noncomputable def oriAt (f : Nat → Nat → ℝ) (W H x0 y0 : Nat) (i j : Nat) : ℝ × ℝ :=
  if x0 + i < W ∧ y0 + j < H then (magnitude f W H (x0 + i) (y0 + j), direction f W H (x0 + i) (y0 + j))
  else (0, 0)

/-- One iteration. -/
noncomputable def oriStep (im : Image ℝ) (cx cy block : Nat) (out : Image (ℝ × ℝ)) (p : Nat × Nat) :
    Res (Image (ℝ × ℝ)) :=
  if p.1 ≥ im.width ∨ p.2 ≥ im.height then Res.ok out
  else do
    let sub ← subimage2d im 0 3 3 p.1 p.2 0
    let o ← pixelOrientation sub
    out.set2 (wadd (wsub p.1 cx) block) (wadd (wsub p.2 cy) block) o

theorem neighbourhood_ok {im : Image ℝ} {W H : Nat} {f : Nat → Nat → ℝ} (s : im.Shows W H f)
    (hW : W < 2 ^ 64 - 2) (hH : H < 2 ^ 64 - 2) {cx cy block : Nat} (hx : block ≤ cx) (hy : block ≤ cy)
    (hx' : cx + block + block < 2 ^ 64) (hy' : cy + block + block < 2 ^ 64)
    (hb : 2 * block * (2 * block) < 2 ^ 64) :
    ∃ out, neighbourhoodOrientations im cx cy block = .ok out ∧
      out.Shows (2 * block) (2 * block) (oriAt f W H (cx - block) (cy - block)) := by
  have hbb : 2 * block < 2 ^ 64 := by omega
  unfold neighbourhoodOrientations
  rw [wsub_of_le hx (by omega), wsub_of_le hy (by omega), wadd_of_lt (by omega : cx + block < 2 ^ 64),
    wadd_of_lt (by omega : cy + block < 2 ^ 64), wmul_of_lt (by omega), Nat.mul_comm block 2]
  have hflat : loop (fun (out : Image (ℝ × ℝ)) y => loop (fun (out : Image (ℝ × ℝ)) x =>
      if x ≥ im.width ∨ y ≥ im.height then Res.ok out
      else do
        let sub ← subimage2d im 0 3 3 x y 0
        let o ← pixelOrientation sub
        out.set2 (wadd (wsub x cx) block) (wadd (wsub y cy) block) o)
      (upToExcl (cx - block) (cx + block)) out) (upToExcl (cy - block) (cy + block))
      (Image.ofSizes (0, 0) [2 * block, 2 * block]) =
      loop (oriStep im cx cy block) ((upToExcl (cy - block) (cy + block)).flatMap fun y =>
        (upToExcl (cx - block) (cx + block)).map fun x => (x, y))
      (Image.ofSizes (0, 0) [2 * block, 2 * block]) := by
    rw [← loop_flatMap]
    apply loop_congr
    intro y _ out
    exact loop_map (oriStep im cx cy block) (fun x => (x, y)) (upToExcl (cx - block) (cx + block)) out
  rw [hflat]
  rw [loop_filter (fun p : Nat × Nat => decide (p.1 < W ∧ p.2 < H))]
  swap
  · intro p _ hc out
    unfold oriStep
    rw [if_pos]
    rw [s.width, s.height]
    simp at hc
    omega
  have hmem : ∀ p : Nat × Nat, p ∈ ((upToExcl (cy - block) (cy + block)).flatMap fun y =>
      (upToExcl (cx - block) (cx + block)).map fun x => (x, y)) ↔
      (cx - block ≤ p.1 ∧ p.1 < cx + block) ∧ cy - block ≤ p.2 ∧ p.2 < cy + block := by
    rintro ⟨x, y⟩
    unfold upToExcl
    simp only [List.mem_flatMap, List.mem_map, List.mem_range'_1, Prod.mk.injEq]
    constructor
    · rintro ⟨y', hy, x', hx, rfl, rfl⟩; omega
    · intro h; exact ⟨y, by omega, x, by omega, rfl, rfl⟩
  have hstep : ∀ p ∈ ((upToExcl (cy - block) (cy + block)).flatMap fun y =>
      (upToExcl (cx - block) (cx + block)).map fun x => (x, y)).filter (fun p => decide (p.1 < W ∧ p.2 < H)),
      ∀ (out : Image (ℝ × ℝ)) (g : Nat → Nat → ℝ × ℝ), out.Shows (2 * block) (2 * block) g →
      ∃ out', oriStep im cx cy block out p = .ok out' ∧
        out'.Shows (2 * block) (2 * block) (updPx g (p.1 + block - cx) (p.2 + block - cy)
          (oriAt f W H (cx - block) (cy - block) (p.1 + block - cx) (p.2 + block - cy))) := by
    intro p hp out g hg
    rw [List.mem_filter, hmem] at hp
    obtain ⟨⟨⟨p1, p2⟩, p3, p4⟩, p5⟩ := hp
    simp at p5
    unfold oriStep
    rw [s.width, s.height, if_neg (by omega)]
    obtain ⟨sub, e1, e2⟩ := orientation_ok s hW hH p5.1 p5.2
    obtain ⟨out', e3, so⟩ := hg.set2 (x := p.1 + block - cx) (y := p.2 + block - cy) (by omega) (by omega)
      (magnitude f W H p.1 p.2, direction f W H p.1 p.2)
    refine ⟨out', ?_, ?_⟩
    · rw [e1]
      simp only [Res.ok_bind, e2]
      rw [wadd_wsub (by omega) (by omega) (by omega) (by omega),
        wadd_wsub (by omega) (by omega) (by omega) (by omega)]
      exact e3
    · unfold oriAt
      have a : cx - block + (p.1 + block - cx) = p.1 := by omega
      have b : cy - block + (p.2 + block - cy) = p.2 := by omega
      rw [a, b, if_pos p5]
      exact so
  obtain ⟨out, e, so⟩ := loop_write (fun p : Nat × Nat => (p.1 + block - cx, p.2 + block - cy))
    (oriAt f W H (cx - block) (cy - block)) _ _ hstep _ _
    (ofSizes_shows (0, 0) hbb hbb hb)
  refine ⟨out, e, so.congr fun i j hi hj => ?_⟩
  by_cases hin : cx - block + i < W ∧ cy - block + j < H
  · rw [if_pos]
    refine ⟨(cx - block + i, cy - block + j), ?_, ?_⟩
    · rw [List.mem_filter, hmem]
      refine ⟨⟨⟨?_, ?_⟩, ?_, ?_⟩, by simpa using hin⟩ <;> simp only [] <;> omega
    · simp only [Prod.mk.injEq]; omega
  · rw [if_neg]
    · unfold oriAt
      rw [if_neg hin]
    · rintro ⟨p, hp, hpe⟩
      rw [List.mem_filter, hmem] at hp
      obtain ⟨⟨⟨p1, p2⟩, p3, p4⟩, p5⟩ := hp
      simp only [Prod.mk.injEq] at hpe
      simp at p5
      omega

theorem subregion_ok {ori : Image (ℝ × ℝ)} {n : Nat} {f : Nat → Nat → ℝ} {W H x0 y0 : Nat}
    (so : ori.Shows n n (oriAt f W H x0 y0)) (hn : 16 ≤ n) {sx sy : Nat} (hsx : sx < 4) (hsy : sy < 4) :
    ∃ hist, subregionHistogram ori sx sy = .ok hist ∧ hist.length = 8 ∧
      ∀ b < 8, hist.getD b 0 = ((iterYX 4 4).map fun p =>
        share f W H (fun d => min 7 ⌊d / 45⌋₊) b (x0 + (sx * 4 + p.1)) (y0 + (sy * 4 + p.2))).sum := by
  unfold subregionHistogram pixFor
  obtain ⟨out, e, l, v⟩ := loop_hist 8 (fun (hist : List ℝ) (p : Nat × Nat) => do
      let o ← ori.at2 (sx * 4 + p.1) (sy * 4 + p.2)
      let b ← toSize (o.2 / 45)
      let bin := if b = 8 then 7 else b
      let v ← vget hist bin
      vset hist bin (v + o.1))
    (fun p b => share f W H (fun d => min 7 ⌊d / 45⌋₊) b (x0 + (sx * 4 + p.1)) (y0 + (sy * 4 + p.2)))
    (iterYX 4 4) (by
      intro p hp hist hh
      obtain ⟨hx, hy⟩ : p.1 < 4 ∧ p.2 < 4 := mem_iterYX.1 hp
      have hpx := so.px (sx * 4 + p.1) (sy * 4 + p.2) (by omega) (by omega)
      by_cases hin : x0 + (sx * 4 + p.1) < W ∧ y0 + (sy * 4 + p.2) < H
      · generalize hX : x0 + (sx * 4 + p.1) = X at *
        generalize hY : y0 + (sy * 4 + p.2) = Y at *
        have hv : oriAt f W H x0 y0 (sx * 4 + p.1) (sy * 4 + p.2) = (magnitude f W H X Y, direction f W H X Y) := by
          unfold oriAt; rw [hX, hY, if_pos hin]
        rw [hv] at hpx
        have hp0 := direction_pos f W H X Y
        have hle := direction_le f W H X Y
        have h8 := bin45 (le_of_lt hp0) hle
        have hbin : (if ⌊direction f W H X Y / 45⌋₊ = 8 then 7 else ⌊direction f W H X Y / 45⌋₊) =
            min 7 ⌊direction f W H X Y / 45⌋₊ := by
          split <;> omega
        obtain ⟨hist', e3, n3, v3⟩ := hist_add hh (k := min 7 ⌊direction f W H X Y / 45⌋₊) (by omega)
          (magnitude f W H X Y)
        refine ⟨hist', ?_, n3, fun b hb => ?_⟩
        · rw [hpx]
          simp only [Res.ok_bind]
          rw [toSize_floor (by positivity) (by norm_num; linarith)]
          simp only [Res.ok_bind]
          rw [hbin]
          exact e3
        · rw [v3 b hb]
          unfold share
          by_cases hb' : min 7 ⌊direction f W H X Y / 45⌋₊ = b
          · rw [if_pos hb', if_pos ⟨hin.1, hin.2, hb'⟩]
          · rw [if_neg hb', if_neg (fun h => hb' h.2.2)]
      · have hv : oriAt f W H x0 y0 (sx * 4 + p.1) (sy * 4 + p.2) = (0, 0) := by
          unfold oriAt; rw [if_neg hin]
        rw [hv] at hpx
        obtain ⟨hist', e3, n3, v3⟩ := hist_add hh (k := 0) (by omega) (0 : ℝ)
        refine ⟨hist', ?_, n3, fun b hb => ?_⟩
        · rw [hpx]
          simp only [Res.ok_bind]
          rw [toSize_floor (by simp) (by simp)]
          simpa using e3
        · rw [v3 b hb]
          unfold share
          rw [if_neg (c := _ ∧ _) (fun h => hin ⟨h.1, h.2.1⟩)]
          simp) (List.replicate 8 0) (by simp)
  refine ⟨out, e, l, fun b hb => ?_⟩
  rw [v b hb]
  rw [replicate_getD, zero_add]

theorem flatMap_getD {β : Type} (n : Nat) (g : β → List ℝ) (l : List β) (h : ∀ p ∈ l, (g p).length = n)
    {k b : Nat} {p : β} (hk : l[k]? = some p) (hb : b < n) :
    (l.flatMap g).getD (k * n + b) 0 = (g p).getD b 0 := by
  induction l generalizing k with
  | nil => simp at hk
  | cons q l ih =>
    have hq := h q (by simp)
    rw [List.flatMap_cons]
    cases k with
    | zero =>
      simp at hk
      subst hk
      rw [List.getD_eq_getElem?_getD, List.getElem?_append_left (by omega), ← List.getD_eq_getElem?_getD]
      simp
    | succ k =>
      simp at hk
      rw [List.getD_eq_getElem?_getD, List.getElem?_append_right (by rw [hq, Nat.add_mul]; omega),
        ← List.getD_eq_getElem?_getD, hq, show (k + 1) * n + b - n = k * n + b by rw [Nat.add_mul]; omega]
      exact ih (fun p hp => h p (by simp [hp])) hk

theorem iterYX_sum (g : Nat → Nat → ℝ) (w h : Nat) :
    ((iterYX w h).map fun p => g p.1 p.2).sum = ∑ j ∈ Finset.range h, ∑ i ∈ Finset.range w, g i j := by
  have hr : ∀ (n : Nat) (u : Nat → ℝ), ((List.range n).map u).sum = ∑ i ∈ Finset.range n, u i := by
    intro n u
    induction n with
    | zero => simp
    | succ n ih => rw [List.range_succ, List.map_append, List.sum_append, ih, Finset.sum_range_succ]; simp
  unfold iterYX
  rw [← hr, List.map_flatMap]
  generalize List.range h = l
  induction l with
  | nil => simp
  | cons j l ih =>
    rw [List.flatMap_cons, List.sum_append, ih, List.map_cons, List.sum_cons, ← hr]
    simp [Function.comp_def]

theorem descriptor_of_ori {im : Image ℝ} {cx cy block n : Nat} {ori : Image (ℝ × ℝ)}
    (e : neighbourhoodOrientations im cx cy block = .ok ori) {f : Nat → Nat → ℝ} {W H x0 y0 : Nat}
    (so : ori.Shows n n (oriAt f W H x0 y0)) (hn : 16 ≤ n) :
    ∃ d, keypointDescriptor im cx cy block = .ok d ∧ d.length = 128 ∧
      ∀ sx sy b, sx < 4 → sy < 4 → b < 8 → d.getD ((sx + 4 * sy) * 8 + b) 0 =
        ∑ j ∈ Finset.range 4, ∑ i ∈ Finset.range 4,
          share f W H (fun d => min 7 ⌊d / 45⌋₊) b (x0 + (sx * 4 + i)) (y0 + (sy * 4 + j)) := by
  have hsub : ∀ p : Nat × Nat, ∃ hist : List ℝ, p ∈ iterYX 4 4 → (subregionHistogram ori p.1 p.2 = .ok hist ∧
      hist.length = 8 ∧ ∀ b < 8, hist.getD b 0 = ((iterYX 4 4).map fun q =>
        share f W H (fun d => min 7 ⌊d / 45⌋₊) b (x0 + (p.1 * 4 + q.1)) (y0 + (p.2 * 4 + q.2))).sum) := by
    intro p
    by_cases hp : p ∈ iterYX 4 4
    · obtain ⟨hx, hy⟩ : p.1 < 4 ∧ p.2 < 4 := mem_iterYX.1 hp
      obtain ⟨hist, h⟩ := subregion_ok so hn hx hy
      exact ⟨hist, fun _ => h⟩
    · exact ⟨[], fun h => absurd h hp⟩
  choose g hg using hsub
  unfold keypointDescriptor
  rw [e]
  simp only [Res.ok_bind]
  unfold pixFor
  have hl := loop_collectL (fun (features : List ℝ) (p : Nat × Nat) => do
    let h ← subregionHistogram ori p.1 p.2
    Res.ok (features ++ h)) g (iterYX 4 4) (by
      intro p hp out
      rw [(hg p hp).1]
      rfl) []
  refine ⟨_, hl, ?_, ?_⟩
  · rw [List.nil_append, List.length_flatMap]
    have : (iterYX 4 4).map (fun p => (g p).length) = (iterYX 4 4).map fun _ => 8 :=
      List.map_congr_left fun p hp => (hg p hp).2.1
    rw [this]
    rfl
  · intro sx sy b hx hy hb
    rw [List.nil_append, flatMap_getD 8 g _ (fun p hp => (hg p hp).2.1) (iterYX_getElem hx hy) hb,
      (hg (sx, sy) (mem_iterYX.2 ⟨hx, hy⟩)).2.2 b hb]
    exact iterYX_sum (fun i j => share f W H (fun d => min 7 ⌊d / 45⌋₊) b (x0 + (sx * 4 + i)) (y0 + (sy * 4 + j))) 4 4

end TinyDIP.Sift
