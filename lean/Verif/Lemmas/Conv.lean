import Verif.Model.Conv
import Verif.Spec.Conv
import Verif.Lemmas.Geometry
import Verif.Lemmas.Blocks
import Verif.Lemmas.Pixelwise
import Mathlib.Algebra.BigOperators.Intervals
import Mathlib.Algebra.BigOperators.Ring.Finset
import Mathlib.Tactic.Ring

namespace TinyDIP

variable {α : Type}

/-! ### Loops that add up -/

theorem loop_sum {β : Type} [AddCommMonoid α] (g : β → α) (body : α → β → Res α) (l : List β)
    (hb : ∀ b ∈ l, ∀ s, body s b = .ok (s + g b)) (s : α) :
    loop body l s = .ok (s + (l.map g).sum) := by
  induction l generalizing s with
  | nil => simp [loop]
  | cons b bs ih =>
    simp only [loop, hb b (by simp) s, ih (fun b hb' => hb b (by simp [hb'])), List.map_cons,
      List.sum_cons, add_assoc]

theorem sum_map_range [AddCommMonoid α] (g : Nat → α) (n : Nat) :
    ((List.range n).map g).sum = (Finset.range n).sum g := by
  induction n with
  | zero => simp
  | succ n ih => rw [List.range_succ, List.map_append, List.sum_append, ih, Finset.sum_range_succ]; simp

/-- A sum over an inclusive integer range, as a sum over all naturals below a bound with the terms
outside the range equal to zero. -/
theorem sum_intRange [AddCommMonoid α] (g : Int → α) (G : Nat → α) (a b : Int) (n : Nat) (ha : 0 ≤ a)
    (hb : b < n) (hin : ∀ k : Nat, a ≤ k → (k : Int) ≤ b → g k = G k)
    (hout : ∀ k : Nat, k < n → ¬ (a ≤ k ∧ (k : Int) ≤ b) → G k = 0) :
    ((intRange a b).map g).sum = (Finset.range n).sum G := by
  unfold intRange
  rw [List.map_map, sum_map_range]
  have e1 : (Finset.range (b - a + 1).toNat).sum (g ∘ fun k : Nat => a + (k : Int)) =
      (Finset.range (b - a + 1).toNat).sum (fun k => G (a.toNat + k)) := by
    apply Finset.sum_congr rfl
    intro k hk
    have := Finset.mem_range.mp hk
    have e : a + (k : Int) = ((a.toNat + k : Nat) : Int) := by omega
    show g (a + (k : Int)) = _
    rw [e]
    exact hin _ (by omega) (by omega)
  rw [e1]
  set c := (b - a + 1).toNat with hc
  have e2 := Finset.sum_Ico_eq_sum_range G a.toNat (a.toNat + c)
  rw [Nat.add_sub_cancel_left] at e2
  rw [← e2]
  rcases Nat.eq_zero_or_pos c with h0 | h0
  · rw [h0, Nat.add_zero, Finset.Ico_self, Finset.sum_empty]
    symm
    apply Finset.sum_eq_zero
    intro k hk
    exact hout k (Finset.mem_range.mp hk) (by omega)
  · apply Finset.sum_subset
    · intro k hk
      have := Finset.mem_Ico.mp hk
      exact Finset.mem_range.mpr (by omega)
    · intro k hk hn
      have h1 := Finset.mem_range.mp hk
      apply hout k h1
      rintro ⟨h2, h3⟩
      exact hn (Finset.mem_Ico.mpr (by omega))

/-! ### conv2 -/

theorem flipped_shows {im : Image α} {w h : Nat} {f : Nat → Nat → α} (s : im.Shows w h f)
    (hw : 0 < w) (hh : 0 < h) :
    ∃ yf, Image.ofData im.data.reverse im.size = .ok yf ∧
      yf.Shows w h (fun x y => f (w - 1 - x) (h - 1 - y)) := by
  have hlen : im.data.reverse.length = w * h := by simp [s.len]
  refine ⟨⟨[w, h], im.data.reverse⟩, ?_, ?_⟩
  · unfold Image.ofData
    have hne : im.data.reverse.isEmpty = false := by
      have : 0 < w * h := Nat.mul_pos hw hh
      cases hd : im.data.reverse with
      | nil => rw [hd] at hlen; simp at hlen; omega
      | cons a l => rfl
    have hp : Image.prodW im.size = w * h := by
      rw [s.size, prodW_of_lt (by simpa using s.fits)]; simp
    rw [hne, hp, hlen, s.size]
    simp
  · refine Image.Shows.of_data s.w_lt s.h_lt s.fits rfl hlen ?_
    intro x y hx hy
    have hi : x + w * y < w * h := s.len ▸ s.idx_lt hx hy
    have hj := s.data? (show w - 1 - x < w by omega) (show h - 1 - y < h by omega)
    show im.data.reverse[x + w * y]? = _
    rw [List.getElem?_reverse (by rw [s.len]; exact hi), s.len]
    have e : w * h - 1 - (x + w * y) = (w - 1 - x) + w * (h - 1 - y) := by
      obtain ⟨h', rfl⟩ : ∃ h', h = y + 1 + h' := ⟨h - (y + 1), by omega⟩
      have e1 : w * (y + 1 + h') = w * y + w + w * h' := by ring
      have e2 : y + 1 + h' - 1 - y = h' := by omega
      rw [e1, e2]; omega
    rw [e, hj]

theorem row_get {im : Image α} {w h : Nat} {f : Nat → Nat → α} (s : im.Shows w h f) {x y : Nat}
    (hx : x < w) (hy : y < h) : ∃ p, im.posUnchecked [0, y] = .ok p ∧ 
      ∀ k : Int, 0 ≤ k → k < w → pget im.data p k = .ok (f k.toNat y) := by
  have hb : InBounds im.size [0, y] := by rw [s.size]; exact inBounds2.mpr ⟨by omega, hy⟩
  refine ⟨_, s.wf.posUnchecked hb, ?_⟩
  intro k hk hkw
  rw [s.size, rowMajor2]
  unfold pget
  rw [if_neg (by omega)]
  have e : (((0 + w * y : Nat) : Int) + k).toNat = k.toNat + w * y := by omega
  rw [e, vget, s.data? (by omega) hy]

theorem conv2Pixel_eq [CommRing α] {x yf : Image α} {w1 h1 w2 h2 : Nat} {fx fy : Nat → Nat → α}
    (sx : x.Shows w1 h1 fx) (sy : yf.Shows w2 h2 (fun x y => fy (w2 - 1 - x) (h2 - 1 - y)))
    (i j : Nat) (hw1 : 0 < w1) (hw2 : 0 < w2) :
    conv2Pixel x yf i j = .ok (convAt w1 h1 fx w2 h2 fy i j) := by
  unfold conv2Pixel convAt
  simp only [sx.width, sx.height, sy.width, sy.height]
  rw [loop_sum (fun y1 : Int => (Finset.range w1).sum fun k =>
    fx k y1.toNat * zeroExt w2 h2 fy ((i : Int) - k) ((j : Int) - y1))]
  · rw [zero_add]
    congr 1
    apply sum_intRange _ _ _ _ h1 (by omega) (by omega)
    · intro l _ _
      simp
    · intro l hl hn
      apply Finset.sum_eq_zero
      intro k _
      rw [zeroExt, if_neg (by omega), mul_zero]
  · intro y1 hy1 s
    have hy : max 0 ((j : Int) - h2 + 1) ≤ y1 ∧ y1 ≤ min ((h1 : Int) - 1) j := by
      unfold intRange at hy1
      rw [List.mem_map] at hy1
      obtain ⟨k, hk, rfl⟩ := hy1
      have := List.mem_range.mp hk
      omega
    obtain ⟨p, ep, gp⟩ := row_get sx (x := 0) (y := y1.toNat) hw1 (by omega)
    obtain ⟨q, eq, gq⟩ := row_get sy (x := 0) (y := ((h2 : Int) - 1 - j + y1).toNat) hw2 (by omega)
    simp only [ep, eq, Res.ok_bind]
    rw [loop_sum (fun x1 : Int =>
      fx x1.toNat y1.toNat * zeroExt w2 h2 fy ((i : Int) - x1) ((j : Int) - y1))]
    · congr 2
      apply sum_intRange _ _ _ _ w1 (by omega) (by omega)
      · intro k _ _
        simp
      · intro k hk hn
        rw [zeroExt, if_neg (by omega), mul_zero]
    · intro x1 hx1 s
      have hx : max 0 ((i : Int) - w2 + 1) ≤ x1 ∧ x1 ≤ min ((w1 : Int) - 1) i := by
        unfold intRange at hx1
        rw [List.mem_map] at hx1
        obtain ⟨k, hk, rfl⟩ := hx1
        have := List.mem_range.mp hk
        omega
      rw [gp x1 (by omega) (by omega), gq _ (by omega) (by omega)]
      simp only [Res.ok_bind]
      rw [zeroExt, if_pos (by omega)]
      have e1 : w2 - 1 - ((w2 : Int) - 1 - i + x1).toNat = ((i : Int) - x1).toNat := by omega
      have e2 : h2 - 1 - ((h2 : Int) - 1 - j + y1).toNat = ((j : Int) - y1).toNat := by omega
      rw [e1, e2]

theorem mem_covers {w h : Nat} {order : List Nat} (ho : order.Perm (List.range (w * h))) {i : Nat}
    (hi : i ∈ order) : i < w * h := List.mem_range.mp (ho.mem_iff.mp hi)

theorem conv2Ord_full [CommRing α] {x y : Image α} {w1 h1 w2 h2 : Nat} {fx fy : Nat → Nat → α}
    (sx : x.Shows w1 h1 fx) (sy : y.Shows w2 h2 fy)
    (hw1 : 0 < w1) (hh1 : 0 < h1) (hw2 : 0 < w2) (hh2 : 0 < h2)
    (hf : (w1 + w2) * (h1 + h2) < 2 ^ 64) (order : List Nat)
    (ho : order.Perm (List.range ((w1 + w2 - 1) * (h1 + h2 - 1)))) :
    ∃ out, conv2Ord order x y false = .ok out ∧
      out.Shows (w1 + w2 - 1) (h1 + h2 - 1) (convAt w1 h1 fx w2 h2 fy) ∧
      conv2Ord order x y true = subimage2d out 0 w1 h1 ((w1 + w2 - 1) / 2) ((h1 + h2 - 1) / 2) 0 := by
  have hbw : w1 + w2 < 2 ^ 64 :=
    lt_of_le_of_lt (Nat.le_mul_of_pos_right (w1 + w2) (by omega)) hf
  have hbh : h1 + h2 < 2 ^ 64 :=
    lt_of_le_of_lt (Nat.le_mul_of_pos_left (h1 + h2) (by omega)) hf
  have e1 : wsub (wadd w1 w2) 1 = w1 + w2 - 1 := by
    rw [wadd_of_lt hbw, wsub_of_le (by omega) hbw]
  have e2 : wsub (wadd h1 h2) 1 = h1 + h2 - 1 := by
    rw [wadd_of_lt hbh, wsub_of_le (by omega) hbh]
  set W' := w1 + w2 - 1 with hW
  set H' := h1 + h2 - 1 with hH
  have hW0 : 0 < W' := by omega
  have hfits : W' * H' < 2 ^ 64 := lt_of_le_of_lt (Nat.mul_le_mul (by omega) (by omega)) hf
  obtain ⟨yf, eyf, syf⟩ := flipped_shows sy hw2 hh2
  obtain ⟨out, e, s⟩ := loop_fill (fun idx => (idx % W', idx / W')) (convAt w1 h1 fx w2 h2 fy)
    (fun (output : Image α) idx => do
      let out_y ← udiv idx W'
      let out_x ← umod idx W'
      let sum ← conv2Pixel x yf out_x out_y
      output.set2u out_x out_y sum) order
    (by
      intro idx hidx im f hs
      have hlt := mem_covers ho hidx
      have hx : idx % W' < W' := Nat.mod_lt _ hW0
      have hy : idx / W' < H' := by
        rw [Nat.div_lt_iff_lt_mul hW0, Nat.mul_comm]; exact hlt
      simp only [udiv, umod, if_neg (show ¬ W' = 0 by omega), Res.ok_bind,
        conv2Pixel_eq sx syf _ _ hw1 hw2]
      exact hs.set2u hx hy _)
    (by
      intro a b ha hb
      refine ⟨a + W' * b, ho.mem_iff.mpr (List.mem_range.mpr ?_), ?_⟩
      · calc a + W' * b < W' + W' * b := by omega
          _ = W' * (b + 1) := by ring
          _ ≤ W' * H' := Nat.mul_le_mul_left _ hb
      · simp [Nat.add_mul_mod_self_left, Nat.mod_eq_of_lt ha, Nat.add_mul_div_left _ _ hW0,
          Nat.div_eq_of_lt ha])
    (Image.ofSizes 0 [W', H']) _ (ofSizes_shows 0 (by omega) (by omega) hfits)
  refine ⟨out, ?_, s, ?_⟩
  · unfold conv2Ord
    simp only [sx.width, sx.height, sy.width, sy.height, e1, e2, eyf, Res.ok_bind]
    rw [e]; rfl
  · unfold conv2Ord
    simp only [sx.width, sx.height, sy.width, sy.height, e1, e2, eyf, Res.ok_bind]
    rw [e]; rfl

end TinyDIP
