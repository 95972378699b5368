import Verif.Model.ImageIter
import Verif.Lemmas.Loop

namespace TinyDIP

theorem linearToIndicesGo_spec (n : Nat) (ss : List Nat) (stride : Nat) (hs : 0 < stride)
    (hn : n / stride < ss.prod) (hf : stride * ss.prod < W) :
    ∃ idx, linearToIndicesGo n ss stride = .ok idx ∧ InBounds ss idx ∧
      rowMajor ss idx = n / stride := by
  induction ss generalizing stride with
  | nil =>
    refine ⟨[], rfl, .nil, ?_⟩
    simp at hn; simp [rowMajor]
    rcases hn with h | h
    · omega
    · exact (Nat.div_eq_of_lt h).symm
  | cons s ss ih =>
    rw [List.prod_cons] at hn hf
    have hs0 : 0 < s := by
      rcases Nat.eq_zero_or_pos s with h0 | h0
      · subst h0; simp at hn
      · exact h0
    have hp0 : 0 < ss.prod := by
      rcases Nat.eq_zero_or_pos ss.prod with h0 | h0
      · rw [h0] at hn; simp at hn
      · exact h0
    have hlt : stride * s < W := by
      refine Nat.lt_of_le_of_lt ?_ hf
      rw [← Nat.mul_assoc]; exact Nat.le_mul_of_pos_right _ hp0
    have hw : wmul stride s = stride * s := Nat.mod_eq_of_lt hlt
    have hdiv : n / (stride * s) = n / stride / s := (Nat.div_div_eq_div_mul n stride s).symm
    obtain ⟨idx, h1, h2, h3⟩ := ih (stride * s) (Nat.mul_pos hs hs0)
      (by rw [hdiv]; exact Nat.div_lt_of_lt_mul hn) (by rw [Nat.mul_assoc]; exact hf)
    refine ⟨(n / stride % s) :: idx, ?_, .cons (Nat.mod_lt _ hs0) h2, ?_⟩
    · simp [linearToIndicesGo, udiv, umod, Nat.ne_of_gt hs, Nat.ne_of_gt hs0, hw, h1]
    · rw [rowMajor, h3, hdiv]; exact Nat.mod_add_div _ _

/-- The strides `1, s₀, s₀s₁, ...` -/
theorem linearToIndicesStrides_eq (n : Nat) (ss pre : List Nat) (hp : (pre ++ ss).prod < W)
    (hpos : 0 < (pre ++ ss).prod) :
    linearToIndicesStrides n ((List.range ss.length).map fun k => ((pre ++ ss).take (pre.length + k)).prod) ss
      = linearToIndicesGo n ss pre.prod := by
  induction ss generalizing pre with
  | nil => rfl
  | cons s ss ih =>
    have h1 := ih (pre ++ [s]) (by simpa using hp) (by simpa using hpos)
    rw [List.length_cons, List.range_succ_eq_map, List.map_cons, List.map_map]
    have h2 : wmul pre.prod s = (pre ++ [s]).prod := by
      have : (pre ++ [s]).prod < W := by
        refine Nat.lt_of_le_of_lt ?_ hp
        have e : (pre ++ s :: ss).prod = (pre ++ [s]).prod * ss.prod := by
          rw [← List.prod_append]; simp
        rw [e]
        apply Nat.le_mul_of_pos_right
        rcases Nat.eq_zero_or_pos ss.prod with h0 | h0
        · simp [h0] at hpos
        · exact h0
      rw [wmul, ← Nat.mod_eq_of_lt this]; simp
    simp only [linearToIndicesStrides, linearToIndicesGo, h2, ← h1]
    simp only [Nat.add_zero, List.take_left, List.length_append, List.length_cons, List.length_nil,
      List.append_assoc, List.cons_append, List.nil_append, Function.comp_def, Nat.zero_add,
      Nat.succ_eq_add_one, Nat.add_comm 1, Nat.add_assoc]

/-! ### The pixel iterator -/

variable {α : Type}

/-- The visits from `(x, y)` on. -/
def visitsFrom (f : Nat → Nat → α) (w h x y : Nat) : List (α × Nat × Nat × Nat) :=
  ((List.range (w - x)).map fun i => (f (x + i) y, x + i + w * y, x + i, y)) ++
    (List.range (h - (y + 1))).flatMap fun j =>
      (List.range w).map fun i => (f i (y + 1 + j), i + w * (y + 1 + j), i, y + 1 + j)

theorem pixLoop_spec {im : Image α} {w h : Nat} {f : Nat → Nat → α} (s : im.Shows w h f)
    (hw : 0 < w) (k x y : Nat) (hx : x < w) (hy : y < h) (hk : k + (x + w * y) = w * h) :
    im.pixLoop (k + 1) ⟨x + w * y, x, y, w⟩ = some (.ok (visitsFrom f w h x y)) := by
  have hne : ∀ p, (⟨p, x, y, w⟩ : PixIter) ≠ im.pixEnd := by
    intro p he
    simp [Image.pixEnd, s.height] at he; omega
  induction k generalizing x y with
  | zero =>
    have := s.idx_lt hx hy; rw [s.len] at this; omega
  | succ k ih =>
    rw [Image.pixLoop, if_neg (hne _), vget_eq_ok (s.idx_lt hx hy), s.data hx hy]
    simp only
    by_cases hxe : x + 1 = w
    · have hn : (⟨x + w * y, x, y, w⟩ : PixIter).next = ⟨0 + w * (y + 1), 0, y + 1, w⟩ := by
        simp [PixIter.next, hxe, Nat.mul_add]; omega
      rw [hn]
      by_cases hye : y + 1 < h
      · rw [ih 0 (y + 1) hw hye (by rw [Nat.mul_add]; omega) (by
          intro p he; simp [Image.pixEnd, s.height] at he; omega)]
        simp only
        congr 2
        have e1 : w - x = 1 := by omega
        have e2 : h - (y + 1) = (h - (y + 1 + 1)) + 1 := by omega
        simp only [visitsFrom, e1, e2, List.range_succ_eq_map (n := h - (y + 1 + 1)), List.flatMap_cons,
          List.flatMap_map]
        simp [Nat.add_comm, Nat.add_left_comm]
      · have e2 : y + 1 = h := by omega
        have : (⟨0 + w * (y + 1), 0, y + 1, w⟩ : PixIter) = im.pixEnd := by
          simp [Image.pixEnd, s.height, s.width, s.len, e2]
        rw [Image.pixLoop, if_pos this]
        have e1 : w - x = 1 := by omega
        simp [visitsFrom, e1, e2]
    · have hn : (⟨x + w * y, x, y, w⟩ : PixIter).next = ⟨(x + 1) + w * y, x + 1, y, w⟩ := by
        simp [PixIter.next, hxe, Nat.add_right_comm]
      rw [hn, ih (x + 1) y (by omega) hy (by omega) (by
          intro p he; simp [Image.pixEnd, s.height] at he)]
      simp only
      congr 2
      have e1 : w - x = (w - (x + 1)) + 1 := by omega
      simp only [visitsFrom, e1, List.range_succ_eq_map (n := w - (x + 1)), List.map_cons, List.map_map]
      simp [Nat.add_comm, Nat.add_left_comm]

theorem visitsFrom_zero (f : Nat → Nat → α) (w h : Nat) (hh : 0 < h) :
    visitsFrom f w h 0 0 =
      (List.range h).flatMap fun y => (List.range w).map fun x => (f x y, x + w * y, x, y) := by
  obtain ⟨h, rfl⟩ : ∃ k, h = k + 1 := ⟨h - 1, by omega⟩
  rw [List.range_succ_eq_map]
  simp [visitsFrom, List.flatMap_map, Nat.add_comm]

end TinyDIP
