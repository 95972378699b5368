import Verif.Spec.Cuda
import Verif.Lemmas.Interp
import Verif.Lemmas.Io
import Verif.Lemmas.StitchWarp
import Mathlib.Tactic.IntervalCases

namespace TinyDIP.Cuda

open TinyDIP TinyDIP.Image TinyDIP.Stitch

variable {α : Type}

theorem chkInt_ok {v : Int} (h0 : -(2 ^ 31) ≤ v) (h1 : v < 2 ^ 31) : chkInt v = .ok v := by
  rw [chkInt, if_pos ⟨h0, h1⟩]

theorem idx_lt' {w h x y : Nat} (hx : x < w) (hy : y < h) : y * w + x < w * h := by
  calc y * w + x < y * w + w := by omega
    _ = (y + 1) * w := by ring
    _ ≤ h * w := Nat.mul_le_mul_right _ hy
    _ = w * h := Nat.mul_comm _ _

theorem readSrc_ok {im : Image α} {w h : Nat} {f : Nat → Nat → α} (s : im.Shows w h f) (hwh : w * h < 2 ^ 31)
    {x y : Nat} (hx : x < w) (hy : y < h) : readSrc im.data (w : Int) (x : Int) (y : Int) = .ok (f x y) := by
  have h1 := idx_lt' hx hy
  have e : ((y : Int) * (w : Int)) = ((y * w : Nat) : Int) := by push_cast; rfl
  unfold readSrc
  rw [e, chkInt_ok (by omega) (by omega), Res.ok_bind, chkInt_ok (by omega) (by omega), Res.ok_bind,
    if_pos (by omega)]
  have e2 : (((y * w : Nat) : Int) + (x : Int)).toNat = x + w * y := by
    rw [Nat.mul_comm w y]; omega
  rw [e2, vget, s.data? hx hy]

theorem cubicKernelDevice_eq (x : ℝ) : cubicKernelDevice x = cubicKernel x := rfl

/-- Away from the border the device computes what the host computes. -/
theorem bicubicDevice_interior (cv : Conv α) (zero : α) {im : Image α} {w h : Nat} {f : Nat → Nat → α}
    (s : im.Shows w h f) (hwh : w * h < 2 ^ 31) {x y : ℝ} (hi : Interior w h x y) :
    bicubicDevice cv im.data (w : Int) (h : Int) x y = bicubic cv zero im x y := by
  obtain ⟨hx0, hx, hy0, hy⟩ := hi
  have hx0' : 0 ≤ x := by linarith
  have hy0' : 0 ≤ y := by linarith
  have hno : ¬ (x < 1 ∨ x ≥ (w : ℝ) - 2 ∨ y < 1 ∨ y ≥ (h : ℝ) - 2) := by
    push Not; exact ⟨hx0, hx, hy0, hy⟩
  have hi1 : 1 ≤ ⌊x⌋₊ := by rw [Nat.one_le_floor_iff]; exact hx0
  have hj1 : 1 ≤ ⌊y⌋₊ := by rw [Nat.one_le_floor_iff]; exact hy0
  have hi2 : ⌊x⌋₊ + 2 < w := by
    have h1 := Nat.floor_le hx0'
    have : ((⌊x⌋₊ + 2 : Nat) : ℝ) < w := by push_cast; linarith
    exact_mod_cast this
  have hj2 : ⌊y⌋₊ + 2 < h := by
    have h1 := Nat.floor_le hy0'
    have : ((⌊y⌋₊ + 2 : Nat) : ℝ) < h := by push_cast; linarith
    exact_mod_cast this
  have hw31 : w < 2 ^ 31 := lt_of_le_of_lt (Nat.le_mul_of_pos_right w (by omega)) hwh
  have hh31 : h < 2 ^ 31 := lt_of_le_of_lt (Nat.le_mul_of_pos_left h (by omega)) hwh
  have fx : ⌊x⌋ = ((⌊x⌋₊ : Nat) : Int) := (Int.natCast_floor_eq_floor hx0').symm
  have fy : ⌊y⌋ = ((⌊y⌋₊ : Nat) : Int) := (Int.natCast_floor_eq_floor hy0').symm
  unfold bicubicDevice bicubic
  simp only [s.width, s.height]
  rw [if_neg (by push_cast; exact hno), if_neg hno, toSize_ok hx0' (real_lt_W s.w_lt (by linarith)), Res.ok_bind,
    toSize_ok hy0' (real_lt_W s.h_lt (by linarith)), Res.ok_bind, fx, fy, chkInt_ok (by omega) (by omega), Res.ok_bind,
    chkInt_ok (by omega) (by omega), Res.ok_bind]
  generalize ⌊x⌋₊ = i at *
  generalize ⌊y⌋₊ = j at *
  have key : ∀ n m k : Nat, 1 ≤ n → n + 2 < m → m < 2 ^ 31 → k < 4 →
      (n : Int) - 1 + (k : Int) = ((wadd (wsub n 1) k : Nat) : Int) ∧ wadd (wsub n 1) k < m := by
    intro n m k h1 h2 h3 h4
    rw [wsub_of_le h1 (by omega), wadd_of_lt (by omega)]
    omega
  congr 1
  unfold forUp
  refine loop_congr (fun b hb t => ?_) _
  have hb' := List.mem_range.1 hb
  obtain ⟨ev, hv⟩ := key j h b hj1 hj2 hh31 hb'
  simp only [ev]
  have e : ∀ z, loop (fun (row : ℝ) (k : Nat) => do
        let q ← readSrc im.data (w : Int) ((i : Int) - 1 + (k : Int)) ((wadd (wsub j 1) b : Nat) : Int)
        .ok (row + cv.toR q * cubicKernelDevice (x - (((i : Int) - 1 + (k : Int) : Int) : ℝ)))) (List.range 4) z
      = loop (fun (row : ℝ) k => do
        let q ← im.at2 (wadd (wsub i 1) k) (wadd (wsub j 1) b)
        .ok (row + cv.toR q * cubicKernel (x - ((wadd (wsub i 1) k : Nat) : ℝ)))) (List.range 4) z := by
    intro z
    refine loop_congr (fun a ha t => ?_) _
    have ha' := List.mem_range.1 ha
    obtain ⟨eu, hu⟩ := key i w a hi1 hi2 hw31 ha'
    rw [eu, readSrc_ok s hwh hu hv, s.px _ _ hu hv, Int.cast_natCast, cubicKernelDevice_eq]
  rw [e, Int.cast_natCast, cubicKernelDevice_eq]

theorem nearest_round {n : Nat} {x : ℝ} (h0 : 0 ≤ x) (h1 : x < n) :
    ∃ i : Nat, Nearest n x i ∧ max 0 (min ((n : Int) - 1) ⌊stdRound x⌋) = (i : Int) ∧
      -(2 ^ 31) ≤ ⌊stdRound x⌋ ∧ ⌊stdRound x⌋ ≤ n := by
  have er : ⌊stdRound x⌋ = ⌊x + 1 / 2⌋ := by
    rw [stdRound, if_pos h0, Int.floor_intCast]
  have r0 : 0 ≤ ⌊x + 1 / 2⌋ := Int.floor_nonneg.2 (by linarith)
  obtain ⟨r, hr⟩ := Int.eq_ofNat_of_zero_le r0
  have l1 : ((r : Int) : ℝ) ≤ x + 1 / 2 := by rw [← hr]; exact Int.floor_le _
  have l2 : x + 1 / 2 < ((r : Int) : ℝ) + 1 := by rw [← hr]; exact Int.lt_floor_add_one _
  push_cast at l1 l2
  have rn : r ≤ n := by
    have : (r : ℝ) < ((n + 1 : Nat) : ℝ) := by push_cast; linarith
    have : r < n + 1 := by exact_mod_cast this
    omega
  have n0 : 0 < n := by
    have : (0 : ℝ) < n := by linarith
    exact_mod_cast this
  rw [er, hr]
  refine ⟨min (n - 1) r, ⟨by omega, fun k hk => ?_⟩, by omega, by omega, by omega⟩
  have hle : ∀ a b : Nat, a < b → (a : ℝ) + 1 ≤ b := fun a b hab => by exact_mod_cast hab
  by_cases hrn : r < n
  · rw [min_eq_right (by omega)]
    rcases Nat.lt_trichotomy k r with hkr | hkr | hkr
    · have := hle _ _ hkr
      rw [abs_of_nonneg (a := x - k) (by linarith)]
      exact abs_le.2 ⟨by linarith, by linarith⟩
    · rw [hkr]
    · have := hle _ _ hkr
      rw [abs_of_nonpos (a := x - k) (by linarith)]
      exact abs_le.2 ⟨by linarith, by linarith⟩
  · have hrn' : r = n := by omega
    rw [min_eq_left (by omega)]
    have e : ((n - 1 : Nat) : ℝ) = (n : ℝ) - 1 := by rw [Nat.cast_sub (by omega)]; simp
    rw [e]
    rw [hrn'] at l1
    have hk' := hle _ _ hk
    rw [abs_of_nonneg (a := x - (n - 1)) (by linarith), abs_of_nonneg (a := x - k) (by linarith)]
    linarith

/-- Near the border the device returns a pixel nearest to the position. -/
theorem bicubicDevice_border (cv : Conv α) {im : Image α} {w h : Nat} {f : Nat → Nat → α}
    (s : im.Shows w h f) (hwh : w * h < 2 ^ 31) {x y : ℝ} (hin : Within w h x y) (hi : ¬ Interior w h x y) :
    ∃ i j : Nat, Nearest w x i ∧ Nearest h y j ∧
      bicubicDevice cv im.data (w : Int) (h : Int) x y = .ok (f i j) := by
  obtain ⟨hx0, hx, hy0, hy⟩ := hin
  obtain ⟨i, ni, ei, bi, ci⟩ := nearest_round hx0 hx
  obtain ⟨j, nj, ej, bj, cj⟩ := nearest_round hy0 hy
  refine ⟨i, j, ni, nj, ?_⟩
  have hw31 : w < 2 ^ 31 := lt_of_le_of_lt (Nat.le_mul_of_pos_right w (by have := nj.1; omega)) hwh
  have hh31 : h < 2 ^ 31 := lt_of_le_of_lt (Nat.le_mul_of_pos_left h (by have := ni.1; omega)) hwh
  unfold bicubicDevice
  rw [if_pos (by
    by_contra hc
    push_cast at hc
    push Not at hc
    exact hi ⟨hc.1, hc.2.1, hc.2.2.1, hc.2.2.2⟩)]
  rw [chkInt_ok bi (by omega), Res.ok_bind, chkInt_ok bj (by omega), Res.ok_bind, ei, ej]
  exact readSrc_ok s hwh ni.1 nj.1

/-! ### The launch -/

/-- The output pixel a thread is responsible for. -/
def Thread.pos (t : Thread) : Nat × Nat := (t.bx * 16 + t.tx, t.by' * 16 + t.ty)

theorem mem_threads {nbx nby : Nat} {t : Thread} :
    t ∈ threads nbx nby ↔ t.bx < nbx ∧ t.by' < nby ∧ t.tx < 16 ∧ t.ty < 16 := by
  obtain ⟨bx, by', tx, ty⟩ := t
  simp only [threads, List.mem_flatMap, List.mem_range, List.mem_map, Thread.mk.injEq]
  constructor
  · rintro ⟨b, hb, a, ha, d, hd, c, hc, rfl, rfl, rfl, rfl⟩; exact ⟨ha, hb, hc, hd⟩
  · rintro ⟨ha, hb, hc, hd⟩; exact ⟨by', hb, bx, ha, ty, hd, tx, hc, rfl, rfl, rfl, rfl⟩

theorem blocks_eq {n : Nat} (h : n < 2 ^ 31) : blocks n = (n + 15) / 16 := by
  unfold blocks
  rw [wadd_of_lt (by omega), Nat.mod_eq_of_lt (by omega)]

theorem blocks_cover {n x : Nat} (h : n < 2 ^ 31) (hx : x < n) : x / 16 < blocks n := by
  rw [blocks_eq h]; omega

theorem blocks_fit {n b t : Nat} (h : n < 2 ^ 31) (hb : b < blocks n) (ht : t < 16) : b * 16 + t < 2 ^ 31 := by
  rw [blocks_eq h] at hb; omega

open Classical in
/-- What one thread does to the output buffer. -/
theorem kernel_step {interp : List α → Int → Int → ℝ → ℝ → Res α} {g : ℝ → ℝ → α} {eps : ℝ}
    {M : Matrix (Fin 3) (Fin 3) ℝ} {src : List α} {sw sh ow oh : Nat}
    (hi : ∀ x y, Within sw sh x y → interp src (sw : Int) (sh : Int) x y = .ok (g x y))
    (hwh : ow * oh < 2 ^ 31) {t : Thread} (h1 : t.pos.1 < 2 ^ 31) (h2 : t.pos.2 < 2 ^ 31)
    {out : List α} {f : Nat → Nat → α} (s : (⟨[ow, oh], out⟩ : Image α).Shows ow oh f) :
    ∃ out', kernel interp eps (homOf M) src (sw : Int) (sh : Int) (ow : Int) (oh : Int) out t = .ok out' ∧
      (⟨[ow, oh], out'⟩ : Image α).Shows ow oh (fun x y =>
        if (x, y) = t.pos ∧ |homog M (x : ℝ) (y : ℝ) 2| > eps ∧
          Within sw sh (project M (x : ℝ) (y : ℝ)).1 (project M (x : ℝ) (y : ℝ)).2 then
          g (project M (x : ℝ) (y : ℝ)).1 (project M (x : ℝ) (y : ℝ)).2 else f x y) := by
  have e1 : toInt32 ((t.bx * 16 + t.tx : Nat) : Int) = ((t.pos.1 : Nat) : Int) := toInt32_of_lt h1
  have e2 : toInt32 ((t.by' * 16 + t.ty : Nat) : Int) = ((t.pos.2 : Nat) : Int) := toInt32_of_lt h2
  obtain ⟨⟨x, y⟩, hp⟩ : ∃ p, t.pos = p := ⟨_, rfl⟩
  rw [hp] at e1 e2 h1 h2 ⊢
  unfold kernel
  simp only [e1, e2, Int.cast_natCast, homOf_w, homOf_px, homOf_py]
  have same : (¬ (x < ow ∧ y < oh) ∨ ¬ (|homog M (x : ℝ) (y : ℝ) 2| > eps ∧
          Within sw sh (project M (x : ℝ) (y : ℝ)).1 (project M (x : ℝ) (y : ℝ)).2)) →
      (⟨[ow, oh], out⟩ : Image α).Shows ow oh (fun x' y' =>
        if (x', y') = (x, y) ∧ |homog M (x' : ℝ) (y' : ℝ) 2| > eps ∧
          Within sw sh (project M (x' : ℝ) (y' : ℝ)).1 (project M (x' : ℝ) (y' : ℝ)).2 then
          g (project M (x' : ℝ) (y' : ℝ)).1 (project M (x' : ℝ) (y' : ℝ)).2 else f x' y') := by
    intro hc
    refine s.congr fun x' y' hx hy => ?_
    rw [if_neg]
    rintro ⟨he, h⟩
    obtain ⟨rfl, rfl⟩ := Prod.mk.inj he
    rcases hc with hc | hc
    · exact hc ⟨hx, hy⟩
    · exact hc h
  by_cases hb : x < ow ∧ y < oh
  · rw [if_pos (by omega)]
    by_cases hc : |homog M (x : ℝ) (y : ℝ) 2| > eps
    · rw [if_pos hc]
      by_cases hin : Within sw sh (project M (x : ℝ) (y : ℝ)).1 (project M (x : ℝ) (y : ℝ)).2
      · rw [if_pos (show _ ∧ _ from hin), hi _ _ hin, Res.ok_bind]
        have hl := idx_lt' hb.1 hb.2
        have e : ((y : Int) * (ow : Int)) = ((y * ow : Nat) : Int) := by push_cast; rfl
        rw [e, chkInt_ok (by omega) (by omega), Res.ok_bind, chkInt_ok (by omega) (by omega), Res.ok_bind,
          if_pos (by omega)]
        have e3 : (((y * ow : Nat) : Int) + (x : Int)).toNat = x + ow * y := by
          rw [Nat.mul_comm ow y]; omega
        rw [e3]
        have hlen : out.length = ow * oh := s.len
        rw [vset, if_pos (by rw [hlen]; have := Nat.mul_comm ow y; omega)]
        refine ⟨_, rfl, ?_⟩
        refine Image.Shows.of_data s.w_lt s.h_lt s.fits rfl (by simp [hlen]) ?_
        intro x' y' hx' hy'
        have hd := s.data? hx' hy'
        simp only at hd ⊢
        rw [List.getElem?_set]
        by_cases hxy : (x', y') = (x, y)
        · obtain ⟨rfl, rfl⟩ := Prod.mk.inj hxy
          rw [if_pos rfl, if_pos (by rw [hlen]; have := Nat.mul_comm ow y'; omega), if_pos ⟨rfl, hc, hin⟩]
        · have hne : x + ow * y ≠ x' + ow * y' := by
            intro he
            apply hxy
            have hm1 : (x + ow * y) % ow = x := by rw [Nat.add_mul_mod_self_left, Nat.mod_eq_of_lt hb.1]
            have hm2 : (x' + ow * y') % ow = x' := by rw [Nat.add_mul_mod_self_left, Nat.mod_eq_of_lt hx']
            have hxx : x = x' := by rw [← hm1, he, hm2]
            subst hxx
            have : ow * y = ow * y' := by omega
            have := Nat.eq_of_mul_eq_mul_left (by omega) this
            rw [this]
          rw [if_neg hne, if_neg (by rintro ⟨h, -⟩; exact hxy h)]
          exact hd
      · rw [if_neg (show ¬ (_ ∧ _) from hin)]
        exact ⟨out, rfl, same (Or.inr fun h => hin h.2)⟩
    · rw [if_neg hc]
      exact ⟨out, rfl, same (Or.inr fun h => hc h.1)⟩
  · rw [if_neg (by omega)]
    exact ⟨out, rfl, same (Or.inl hb)⟩

theorem loop_nil {σ β : Type} (body : σ → β → Res σ) (s : σ) : loop body [] s = .ok s := rfl

theorem loop_cons {σ β : Type} (body : σ → β → Res σ) (b : β) (l : List β) (s : σ) :
    loop body (b :: l) s = (body s b >>= loop body l) := by
  rw [loop]; cases body s b <;> rfl

open Classical in
theorem kernel_loop {interp : List α → Int → Int → ℝ → ℝ → Res α} {g : ℝ → ℝ → α} {eps : ℝ}
    {M : Matrix (Fin 3) (Fin 3) ℝ} {src : List α} {sw sh ow oh : Nat}
    (hi : ∀ x y, Within sw sh x y → interp src (sw : Int) (sh : Int) x y = .ok (g x y))
    (hwh : ow * oh < 2 ^ 31) (l : List Thread) (hl : ∀ t ∈ l, t.pos.1 < 2 ^ 31 ∧ t.pos.2 < 2 ^ 31)
    {out : List α} {f : Nat → Nat → α} (s : (⟨[ow, oh], out⟩ : Image α).Shows ow oh f) :
    ∃ out', loop (kernel interp eps (homOf M) src (sw : Int) (sh : Int) (ow : Int) (oh : Int)) l out = .ok out' ∧
      (⟨[ow, oh], out'⟩ : Image α).Shows ow oh (fun x y =>
        if (∃ t ∈ l, t.pos = (x, y)) ∧ |homog M (x : ℝ) (y : ℝ) 2| > eps ∧
          Within sw sh (project M (x : ℝ) (y : ℝ)).1 (project M (x : ℝ) (y : ℝ)).2 then
          g (project M (x : ℝ) (y : ℝ)).1 (project M (x : ℝ) (y : ℝ)).2 else f x y) := by
  induction l generalizing out f with
  | nil =>
    refine ⟨out, loop_nil _ _, s.congr fun x y _ _ => ?_⟩
    rw [if_neg]
    rintro ⟨⟨t, h, -⟩, -⟩
    simp at h
  | cons t l ih =>
    obtain ⟨o1, e1, s1⟩ := kernel_step (eps := eps) (M := M) hi hwh (hl t (by simp)).1 (hl t (by simp)).2 s
    obtain ⟨o2, e2, s2⟩ := ih (fun t ht => hl t (by simp [ht])) s1
    refine ⟨o2, ?_, s2.congr fun x y _ _ => ?_⟩
    · rw [loop_cons, e1, Res.ok_bind, e2]
    · by_cases hc : |homog M (x : ℝ) (y : ℝ) 2| > eps ∧
          Within sw sh (project M (x : ℝ) (y : ℝ)).1 (project M (x : ℝ) (y : ℝ)).2
      · by_cases a : ∃ t ∈ l, t.pos = (x, y)
        · rw [if_pos ⟨a, hc⟩, if_pos]
          obtain ⟨t, ht, e⟩ := a
          exact ⟨⟨t, by simp [ht], e⟩, hc⟩
        · rw [if_neg (by rintro ⟨h, -⟩; exact a h)]
          by_cases b : t.pos = (x, y)
          · rw [if_pos ⟨b.symm, hc⟩, if_pos ⟨⟨t, by simp, b⟩, hc⟩]
          · rw [if_neg (by rintro ⟨h, -⟩; exact b h.symm), if_neg]
            rintro ⟨⟨t', ht, e⟩, -⟩
            rcases List.mem_cons.1 ht with rfl | ht
            · exact b e
            · exact a ⟨t', ht, e⟩
      · rw [if_neg (by rintro ⟨_, h⟩; exact hc h), if_neg (by rintro ⟨_, h⟩; exact hc h),
          if_neg (by rintro ⟨_, h⟩; exact hc h)]

end TinyDIP.Cuda
