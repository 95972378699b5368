import Verif.Model.Filter
import Verif.Spec.Filter
import Verif.Props.Conv
import Verif.Lemmas.Pixelwise
import Verif.Lemmas.Padding
import Mathlib.Algebra.BigOperators.Ring.Finset
import Mathlib.Algebra.BigOperators.Field
import Mathlib.Tactic.Ring
import Mathlib.Tactic.Linarith
import Mathlib.Tactic.Positivity
import Mathlib.Tactic.FieldSimp
import Mathlib.Tactic.NormNum
import Mathlib.Tactic.Tauto

/-! # Lemmas on Gaussian and bilateral filters -/

namespace TinyDIP.Filter

open TinyDIP Image Finset

theorem normal1D_eq (x sd : ℝ) : normal1D x sd = bell sd x := by
  unfold normal1D bell; congr 1; ring

theorem bell_pos (sd x : ℝ) : 0 < bell sd x := Real.exp_pos _

theorem bellSum_pos (sd c : ℝ) {n : Nat} (hn : 0 < n) :
    0 < (range n).sum fun k => bell sd ((k : ℝ) - c) :=
  Finset.sum_pos (fun _ _ => bell_pos _ _) ⟨0, by simpa using hn⟩

theorem bellWeight_pos (sd c : ℝ) {n : Nat} (hn : 0 < n) (i : Nat) : 0 < bellWeight sd c n i :=
  div_pos (bell_pos _ _) (bellSum_pos _ _ hn)

theorem bellWeight_sum (sd c : ℝ) {n : Nat} (hn : 0 < n) :
    (range n).sum (bellWeight sd c n) = 1 := by
  unfold bellWeight
  rw [← Finset.sum_div]
  exact div_self (bellSum_pos sd c hn).ne'

theorem foldl_add_eq (l : List ℝ) (a : ℝ) : l.foldl (· + ·) a = a + l.sum := by
  induction l generalizing a with
  | nil => simp
  | cons b l ih => simp [ih, add_assoc]

theorem list_sum_range (n : Nat) (g : Nat → ℝ) : ((List.range n).map g).sum = (range n).sum g := by
  induction n with
  | zero => simp
  | succ n ih => rw [List.range_succ, List.map_append, List.sum_append, ih, Finset.sum_range_succ]; simp

theorem total_of_shows {im : Image ℝ} {w h : Nat} {f : Nat → Nat → ℝ} (s : im.Shows w h f) :
    total im = (range (w * h)).sum fun i => f (i % w) (i / w) := by
  rw [total, foldl_add_eq, zero_add, ← list_sum_range]
  congr 1
  apply List.ext_getElem?
  intro i
  by_cases hi : i < w * h
  · have hw : 0 < w := Nat.pos_of_mul_pos_right (lt_of_le_of_lt (Nat.zero_le _) hi)
    have := s.data? (x := i % w) (y := i / w) (Nat.mod_lt _ hw) (Nat.div_lt_of_lt_mul hi)
    rw [Nat.mod_add_div] at this
    rw [this, List.getElem?_map, List.getElem?_range hi]; rfl
  · rw [List.getElem?_eq_none (by rw [s.len]; omega), List.getElem?_eq_none (by simpa using hi)]

theorem dividesScalar_shows {α : Type} {im : Image α} {w h : Nat} {f : Nat → Nat → α} (s : im.Shows w h f)
    (h0 : 0 < w * h) (op : α → α → α) (t : α) :
    ∃ out, dividesScalar op im t = .ok out ∧ out.Shows w h (fun x y => op (f x y) t) := by
  have hp : 0 < im.size.prod := by rw [s.size]; simpa using h0
  have wt : (im.setAllValue t).WF := ⟨by simp [setAllValue, s.wf.len], s.wf.fits, s.wf.sizes⟩
  refine ⟨⟨im.size, List.zipWith op im.data (im.setAllValue t).data⟩, ?_, ?_⟩
  · rw [dividesScalar, ofData_ok s.wf.len s.wf.fits hp, Res.ok_bind]
    exact pixelwiseTransform2_ok op s.wf wt rfl hp
  · refine Image.Shows.of_data s.w_lt s.h_lt s.fits s.size ?_ ?_
    · simp [setAllValue, s.len]
    · intro x y hx hy
      have hi := s.idx_lt hx hy
      rw [List.getElem?_zipWith, s.data? hx hy]
      simp [setAllValue, hi]

theorem gaussianFigure1D_loop {n : Nat} (hn : n < 2 ^ 64) (c : Nat) (sd : ℝ) :
    ∃ out, out.Shows n 1 (fun x _ => bell sd ((x : ℝ) - c)) ∧ ∀ b, gaussianFigure1D n c sd b =
      if b then dividesScalar (· / ·) out ((range n).sum fun x => bell sd ((x : ℝ) - c)) else .ok out := by
  obtain ⟨⟨out, t⟩, e, s, ht⟩ := forUp_inv (n := n)
    (body := fun (s : Image ℝ × ℝ) x => do
      let val := normal1D ((x : ℝ) - (c : ℝ)) sd
      let row ← s.1.set2 x 0 val
      .ok (row, s.2 + val))
    (fun k s => s.1.Shows n 1 (fun x _ => if x < k then bell sd ((x : ℝ) - c) else 0) ∧
      s.2 = (range k).sum fun x => bell sd ((x : ℝ) - c)) (by
      rintro k ⟨im, t⟩ hk ⟨si, ht⟩
      obtain ⟨im', e', s'⟩ := si.set2 hk (Nat.lt_succ_self 0) (normal1D ((k : ℝ) - (c : ℝ)) sd)
      refine ⟨(im', t + normal1D ((k : ℝ) - (c : ℝ)) sd), ?_, ?_, ?_⟩
      · simp only [e', Res.ok_bind]
      · refine s'.congr ?_
        intro x y hx hy
        unfold updPx
        rw [normal1D_eq]
        by_cases hxk : x = k
        · rw [if_pos ⟨hxk, by omega⟩, if_pos (by omega), hxk]
        · rw [if_neg (by tauto)]
          dsimp only
          by_cases hl : x < k
          · rw [if_pos hl, if_pos (by omega)]
          · rw [if_neg hl, if_neg (by omega)]
      · simp only at ht ⊢
        rw [Finset.sum_range_succ, ht, normal1D_eq])
    (ofSizes 0 [n, 1], 0) ⟨(ofSizes_shows 0 hn (by decide) (by simpa using hn)).congr (by simp), by simp⟩
  simp only at s ht
  refine ⟨out, s.congr ?_, ?_⟩
  · intro x y hx _; simp only [if_pos hx]
  · intro b; rw [gaussianFigure1D, e, Res.ok_bind, ← ht]

theorem gaussianFigure1D_shows {n : Nat} (hn : n < 2 ^ 64) (c : Nat) (sd : ℝ) :
    ∃ out, gaussianFigure1D n c sd false = .ok out ∧ out.Shows n 1 (fun x _ => bell sd ((x : ℝ) - c)) := by
  obtain ⟨out, s, e⟩ := gaussianFigure1D_loop hn c sd
  exact ⟨out, by rw [e]; rfl, s⟩

theorem gaussianFigure1D_norm {n : Nat} (hn : n < 2 ^ 64) (h0 : 0 < n) (c : Nat) (sd : ℝ) :
    ∃ out, gaussianFigure1D n c sd true = .ok out ∧ out.Shows n 1 (fun x _ => bellWeight sd c n x) := by
  obtain ⟨g, s, e⟩ := gaussianFigure1D_loop hn c sd
  obtain ⟨o, eo, so⟩ := dividesScalar_shows s (by omega) (· / ·)
    ((range n).sum fun x => bell sd ((x : ℝ) - c))
  exact ⟨o, by rw [e, if_pos rfl, eo], so⟩

theorem conv2_same_shows {x y : Image ℝ} {w1 h1 w2 h2 : Nat} {fx fy : Nat → Nat → ℝ}
    (sx : x.Shows w1 h1 fx) (sy : y.Shows w2 h2 fy)
    (hw1 : 0 < w1) (hh1 : 0 < h1) (hw2 : 0 < w2) (hh2 : 0 < h2)
    (hf : (w1 + w2) * (h1 + h2) < 2 ^ 64) (hb1 : 2 * (w1 + w2) < 2 ^ 64) (hb2 : 2 * (h1 + h2) < 2 ^ 64) :
    ∃ out, conv2 x y true = .ok out ∧ out.Shows w1 h1 (fun i j => convAt w2 h2 fy w1 h1 fx
      (i + ((w1 + w2 - 1) / 2 - w1 / 2)) (j + ((h1 + h2 - 1) / 2 - h1 / 2))) := by
  obtain ⟨full, _, sf, es⟩ := conv2Ord_full sx sy hw1 hh1 hw2 hh2 hf _ (.refl _)
  obtain ⟨out, eo, so⟩ := subimage2d_shows 0 sf (w := w1) (h := h1) (cx := (w1 + w2 - 1) / 2)
    (cy := (h1 + h2 - 1) / 2) hw1 hh1 sx.fits (by omega) (by omega) (by omega) (by omega) 0
  refine ⟨out, ?_, so.congr ?_⟩
  · rw [conv2, Props.conv2_order sx sy hw1 hh1 hf hh2 hw2, es, eo]
  · intro i j hi hj
    rw [if_pos (by omega), Props.convAt_comm]
    congr 1 <;> omega

theorem maskX_shows {n : Nat} (hn : n < 2 ^ 64) (h0 : 0 < n) (c : Nat) (sd : ℝ) :
    ∃ g out, gaussianFigure1D n c sd false = .ok g ∧ dividesScalar (· / ·) g (total g) = .ok out ∧
      out.Shows n 1 (fun x _ => bellWeight sd c n x) := by
  obtain ⟨g, e, s⟩ := gaussianFigure1D_shows hn c sd
  obtain ⟨o, eo, so⟩ := dividesScalar_shows s (by omega) (· / ·) (total g)
  refine ⟨g, o, e, eo, so.congr ?_⟩
  intro x y hx hy
  rw [total_of_shows s, bellWeight, Nat.mul_one]
  congr 1
  refine Finset.sum_congr rfl fun i hi => ?_
  rw [Nat.mod_eq_of_lt (Finset.mem_range.mp hi)]

theorem maskY_shows {n : Nat} (hn : n < 2 ^ 64) (h0 : 0 < n) (c : Nat) (sd : ℝ) :
    ∃ g t out, gaussianFigure1D n c sd false = .ok g ∧ transpose 0 g = .ok t ∧
      dividesScalar (· / ·) t (total t) = .ok out ∧
      out.Shows 1 n (fun _ y => bellWeight sd c n y) := by
  obtain ⟨g, e, s⟩ := gaussianFigure1D_shows hn c sd
  obtain ⟨t, et, st⟩ := transpose_shows 0 s
  obtain ⟨o, eo, so⟩ := dividesScalar_shows st (by omega) (· / ·) (total t)
  refine ⟨g, t, o, e, et, eo, so.congr ?_⟩
  intro x y hx hy
  rw [total_of_shows st, bellWeight, Nat.one_mul]
  congr 1
  refine Finset.sum_congr rfl fun i hi => ?_
  rw [Nat.div_one]

theorem paddedImage_extend {α : Type} [Zero α] {im : Image α} {w h : Nat} {f : Nat → Nat → α} (s : im.Shows w h f)
    {n1 n2 : Nat} {b : Boundary} (v : α) (hc : CanPad b w h n1 n2)
    (hx : w + 2 * n1 < 2 ^ 64) (hy : h + 2 * n2 < 2 ^ 64) (hf : (w + 2 * n1) * (h + 2 * n2) < 2 ^ 64) :
    ∃ out, paddedImage 0 im n1 n2 b v = .ok out ∧ out.Shows (w + 2 * n1) (h + 2 * n2)
      (fun X Y => extend b v w h f ((X : Int) - n1) ((Y : Int) - n2)) := by
  cases b with
  | constant =>
    obtain ⟨o, e, so⟩ := constantPadding_shows 0 s hx hy hf v
    refine ⟨o, e, so.congr ?_⟩
    intro X Y hX hY
    unfold extend
    dsimp only
    by_cases hin : (n1 ≤ X ∧ X < n1 + w) ∧ n2 ≤ Y ∧ Y < n2 + h
    · rw [if_pos hin, if_pos (by omega)]; congr 1 <;> omega
    · rw [if_neg hin, if_neg (by omega)]
  | mirror =>
    obtain ⟨o, e, so⟩ := mirrorPadding_shows 0 s hc.1 hc.2 hx hy hf v
    refine ⟨o, e, so.congr ?_⟩
    intro X Y hX hY
    have := hc.1
    have := hc.2
    unfold extend reflectInt reflectCoord
    dsimp only
    congr 1
    · repeat' split
      all_goals omega
    · repeat' split
      all_goals omega
  | replicate =>
    obtain ⟨o, e, so⟩ := replicatePadding_shows 0 s hc.1 hc.2 hx hy hf v
    refine ⟨o, e, so.congr ?_⟩
    intro X Y hX hY
    have := hc.1
    have := hc.2
    unfold extend clampInt clampCoord
    dsimp only
    congr 1
    · repeat' split
      all_goals omega
    · repeat' split
      all_goals omega

theorem convAt_row (n W H : Nat) (m : Nat → ℝ) (P : Nat → Nat → ℝ) (X Y : Nat) :
    convAt n 1 (fun i _ => m i) W H P X Y =
      (range n).sum fun i => m i * zeroExt W H P ((X : Int) - i) (Y : Int) := by
  unfold convAt; rw [Finset.sum_range_one]; simp

theorem convAt_col (n W H : Nat) (m : Nat → ℝ) (P : Nat → Nat → ℝ) (X Y : Nat) :
    convAt 1 n (fun _ j => m j) W H P X Y =
      (range n).sum fun j => m j * zeroExt W H P (X : Int) ((Y : Int) - j) := by
  unfold convAt
  refine Finset.sum_congr rfl fun j _ => ?_
  rw [Finset.sum_range_one]; simp

theorem imgaussfilt_shows {im : Image ℝ} {w h : Nat} {f : Nat → Nat → ℝ} (s : im.Shows w h f)
    (hw : 0 < w) (hh : 0 < h) {n1 n2 : Nat} (hn1 : 0 < n1) (hn2 : 0 < n2) (sd1 sd2 : ℝ)
    {b : Boundary} (v : ℝ) (hc : CanPad b w h n1 n2)
    (hx : 2 * (w + 3 * n1 + 1) < 2 ^ 64) (hy : 2 * (h + 3 * n2 + 1) < 2 ^ 64)
    (hf : (w + 3 * n1 + 1) * (h + 3 * n2 + 1) < 2 ^ 64) :
    ∃ out, imgaussfilt im sd1 sd2 n1 n2 b v = .ok out ∧ out.Shows w h
      (blur sd1 sd2 n1 n2 (offset w n1) (offset h n2) (maskCenter n1) (maskCenter n2)
        (extend b v w h f)) := by
  have hlt : ∀ a b : Nat, a ≤ w + 3 * n1 + 1 → b ≤ h + 3 * n2 + 1 → a * b < 2 ^ 64 :=
    fun a b ha hb => lt_of_le_of_lt (Nat.mul_le_mul ha hb) hf
  obtain ⟨P, eP, sP⟩ := paddedImage_extend s v hc (by omega) (by omega) (hlt _ _ (by omega) (by omega))
  obtain ⟨g1, m1, eg1, em1, sm1⟩ := maskX_shows (n := n1) (by omega) hn1 (maskCenter n1) sd1
  obtain ⟨g2, t2, m2, eg2, et2, em2, sm2⟩ := maskY_shows (n := n2) (by omega) hn2 (maskCenter n2) sd2
  obtain ⟨o1, e1, s1⟩ := conv2_same_shows sP sm1 (by omega) (by omega) hn1 (by omega)
    (hlt _ _ (by omega) (by omega)) (by omega) (by omega)
  obtain ⟨o2, e2, s2⟩ := conv2_same_shows s1 sm2 (by omega) (by omega) (by omega) hn2
    (hlt _ _ (by omega) (by omega)) (by omega) (by omega)
  obtain ⟨out, eo, so⟩ := subimage2d_shows 0 s2 (w := w) (h := h) (cx := (w + 2 * n1) / 2)
    (cy := (h + 2 * n2) / 2) hw hh s.fits (by omega) (by omega) (by omega) (by omega) 0
  refine ⟨out, ?_, so.congr ?_⟩
  · rw [imgaussfilt, if_neg (by simp [s.dim])]
    simp only [eP, eg1, em1, e1, eg2, et2, em2, e2, Res.ok_bind, s2.width, s2.height, s.width, s.height]
    exact eo
  · intro x y hx' hy'
    have ox : (w + 2 * n1 + n1 - 1) / 2 - (w + 2 * n1) / 2 = offset w n1 := by unfold offset; omega
    have oy : (h + 2 * n2 + n2 - 1) / 2 - (h + 2 * n2) / 2 = offset h n2 := by unfold offset; omega
    have bx : offset w n1 ≤ n1 / 2 := by unfold offset; omega
    have by' : offset h n2 ≤ n2 / 2 := by unfold offset; omega
    have z1 : (h + 2 * n2 + 1 - 1) / 2 - (h + 2 * n2) / 2 = 0 := by omega
    have z2 : (w + 2 * n1 + 1 - 1) / 2 - (w + 2 * n1) / 2 = 0 := by omega
    rw [if_pos (by omega)]
    rw [convAt_col, z2, oy]
    unfold blur
    refine Finset.sum_congr rfl fun j hj => ?_
    have hj := Finset.mem_range.mp hj
    unfold zeroExt
    rw [if_pos (by omega)]
    dsimp only
    rw [convAt_row, z1, ox, Finset.mul_sum]
    refine Finset.sum_congr rfl fun i hi => ?_
    have hi := Finset.mem_range.mp hi
    unfold zeroExt
    rw [if_pos (by omega), ← mul_assoc]
    refine congrArg₂ (fun p q => _ * extend b v w h f p q) ?_ ?_ <;> omega

end TinyDIP.Filter
