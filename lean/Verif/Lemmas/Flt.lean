import Verif.Model.Flt
import Verif.Spec.Flt
import Verif.Lemmas.Conv
import Verif.Lemmas.LinAlg
import Verif.Model.Pixelwise
import Mathlib.Algebra.Order.BigOperators.Ring.Finset
import Mathlib.Algebra.Order.BigOperators.Group.List
import Mathlib.Tactic.Choose

/-!
# Lemmas on sums of numbers of a floating type
-/

namespace TinyDIP.Rnd

open TinyDIP

variable {p : Nat}

theorem ulp1_pos : 0 < ulp1 p := by unfold ulp1; positivity

theorem Flt.ext {a b : Flt p} (h : a.val = b.val) : a = b := by
  cases a; cases b; congr

theorem Flt.add_val (a b : Flt p) : (a + b).val = fl p (a.val + b.val) := rfl
theorem Flt.mul_val (a b : Flt p) : (a * b).val = fl p (a.val * b.val) := rfl
theorem Flt.sub_val (a b : Flt p) : (a - b).val = fl p (a.val - b.val) := rfl
theorem Flt.zero_val : (0 : Flt p).val = 0 := rfl

theorem Flt.add_comm (a b : Flt p) : a + b = b + a := Flt.ext (by rw [add_val, add_val, _root_.add_comm])
theorem Flt.mul_comm (a b : Flt p) : a * b = b * a := Flt.ext (by rw [mul_val, mul_val, _root_.mul_comm])

theorem growth_nonneg (k : Nat) : 0 ≤ growth p k := by
  unfold growth
  have := one_le_pow₀ (n := k) (show 1 ≤ 1 + ulp1 p by linarith [ulp1_pos (p := p)])
  linarith

theorem growth_mono {k l : Nat} (h : k ≤ l) : growth p k ≤ growth p l := by
  unfold growth
  have := pow_le_pow_right₀ (show 1 ≤ 1 + ulp1 p by linarith [ulp1_pos (p := p)]) h
  linarith

theorem growth_zero : growth p 0 = 0 := by simp [growth]

theorem growth_succ (k : Nat) : growth p (k + 1) = growth p k + ulp1 p * (1 + growth p k) := by
  unfold growth; rw [pow_succ]; ring

theorem growth_one : growth p 1 = ulp1 p := by simp [growth]

/-- One rounded sum of two approximate numbers. -/
theorem fl_add_err {a b S T A B : ℝ} {k : Nat} (ha : |a - S| ≤ growth p k * A) (hb : |b - T| ≤ growth p k * B)
    (hS : |S| ≤ A) (hT : |T| ≤ B) : |fl p (a + b) - (S + T)| ≤ growth p (k + 1) * (A + B) := by
  have h1 : |a + b - (S + T)| ≤ growth p k * (A + B) := by
    have : a + b - (S + T) = (a - S) + (b - T) := by ring
    rw [this]
    refine (abs_add_le _ _).trans ?_
    rw [mul_add]; linarith
  have h2 : |a + b| ≤ (1 + growth p k) * (A + B) := by
    have : a + b = (S + T) + (a + b - (S + T)) := by ring
    rw [this]
    refine (abs_add_le _ _).trans ?_
    have := abs_add_le S T
    have : (1 + growth p k) * (A + B) = A + B + growth p k * (A + B) := by ring
    linarith
  have h3 := fl_err (p := p) (a + b)
  have h4 : ulp1 p * |a + b| ≤ ulp1 p * ((1 + growth p k) * (A + B)) := mul_le_mul_of_nonneg_left h2 ulp1_pos.le
  have h5 : fl p (a + b) - (S + T) = (fl p (a + b) - (a + b)) + (a + b - (S + T)) := by ring
  rw [h5, growth_succ]
  refine (abs_add_le _ _).trans ?_
  have h6 : |fl p (a + b) - (a + b)| ≤ ulp1 p * |a + b| := h3
  have : (growth p k + ulp1 p * (1 + growth p k)) * (A + B) =
    growth p k * (A + B) + ulp1 p * ((1 + growth p k) * (A + B)) := by ring
  linarith

theorem fl_mul_err (t : ℝ) {k : Nat} : |fl p t - t| ≤ growth p (k + 1) * |t| := by
  refine (fl_err t).trans (mul_le_mul_of_nonneg_right ?_ (abs_nonneg _))
  have := growth_mono (p := p) (show 1 ≤ k + 1 by omega)
  rwa [growth_one] at this

theorem Quant.add {e : ℤ} {x y : ℝ} (hx : Quant e x) (hy : Quant e y) : Quant e (x + y) := by
  obtain ⟨k, rfl⟩ := hx
  obtain ⟨l, rfl⟩ := hy
  exact ⟨k + l, by push_cast; ring⟩

theorem Quant.mul {e e' : ℤ} {x y : ℝ} (hx : Quant e x) (hy : Quant e' y) : Quant (e + e') (x * y) := by
  obtain ⟨k, rfl⟩ := hx
  obtain ⟨l, rfl⟩ := hy
  exact ⟨k * l, by rw [zpow_add₀ (by norm_num)]; push_cast; ring⟩

theorem Quant.zero (e : ℤ) : Quant e 0 := ⟨0, by simp⟩

theorem Quant.sum {ι : Type} {e : ℤ} {s : Finset ι} {f : ι → ℝ} (h : ∀ i ∈ s, Quant e (f i)) :
    Quant e (s.sum f) := by
  classical
  induction s using Finset.induction_on with
  | empty => simpa using Quant.zero e
  | insert a s ha ih =>
    rw [Finset.sum_insert ha]
    exact (h a (by simp)).add (ih fun i hi => h i (by simp [hi]))

theorem Quant.rep {e : ℤ} {x : ℝ} (h : Quant e x) (hb : |x| ≤ 2 ^ p * (2 : ℝ) ^ e) : Rep p x := by
  obtain ⟨k, rfl⟩ := h
  refine ⟨k, e, ?_, rfl⟩
  have hp : (0 : ℝ) < (2 : ℝ) ^ e := by positivity
  rw [abs_mul, abs_of_pos hp] at hb
  have := le_of_mul_le_mul_right hb hp
  exact_mod_cast this

theorem Quant.fl {e : ℤ} {x : ℝ} (hp : 1 ≤ p) (h : Quant e x) (hb : |x| ≤ 2 ^ p * (2 : ℝ) ^ e) : fl p x = x :=
  fl_of_rep hp (h.rep hb)

/-- What holds after `k` terms of a sum of products have been added: `S` is the exact sum, `A` the sum of the
absolute values, `s` the computed sum. -/
def Run (p : Nat) (e : ℤ) (q : Prop) (k : Nat) (S A : ℝ) (s : Flt p) : Prop :=
  |S| ≤ A ∧ |s.val - S| ≤ growth p (k + 1) * A ∧
    (q → Quant e S ∧ (A ≤ 2 ^ p * (2 : ℝ) ^ e → s.val = S))

theorem Run.init (e : ℤ) (q : Prop) : Run p e q 0 0 0 0 := by
  refine ⟨by simp, by simp [Flt.zero_val], fun _ => ⟨Quant.zero e, fun _ => rfl⟩⟩

theorem Run.step (hp : 1 ≤ p) {e : ℤ} {q : Prop} {k : Nat} {S A : ℝ} {s a b : Flt p} (h : Run p e q k S A s)
    (hq : q → Quant e (a.val * b.val)) :
    Run p e q (k + 1) (S + a.val * b.val) (A + |a.val * b.val|) (s + a * b) := by
  obtain ⟨h1, h2, h3⟩ := h
  have hA : 0 ≤ A := (abs_nonneg _).trans h1
  refine ⟨(abs_add_le _ _).trans (by linarith), ?_, ?_⟩
  · rw [Flt.add_val, Flt.mul_val]
    exact fl_add_err h2 (fl_mul_err _) h1 le_rfl
  · intro hq'
    obtain ⟨q1, q2⟩ := h3 hq'
    refine ⟨q1.add (hq hq'), fun hb => ?_⟩
    have n1 := abs_nonneg (a.val * b.val)
    rw [Flt.add_val, Flt.mul_val, q2 (by linarith), (hq hq').fl hp (by linarith)]
    exact (q1.add (hq hq')).fl hp ((abs_add_le _ _).trans (by linarith))

/-! ### Sums in any grouping -/

theorem brackets_ne {α : Type} {f : α → α → α} {l : List α} {v : α} (h : Brackets f l v) : 0 < l.length := by
  induction h with
  | one a => simp
  | node _ _ h1 _ => simp; omega

theorem abs_sum_le (l : List ℝ) : |l.sum| ≤ (l.map abs).sum := by
  induction l with
  | nil => simp
  | cons a l ih => simp only [List.sum_cons, List.map_cons]; exact (abs_add_le _ _).trans (by linarith)

theorem brackets_err {l : List (Flt p)} {v : Flt p} (h : Brackets (· + ·) l v) :
    |v.val - (l.map (·.val)).sum| ≤ growth p (l.length - 1) * (l.map fun a => |a.val|).sum := by
  induction h with
  | one a => simp [growth_zero]
  | @node l₁ l₂ a b h1 h2 ih1 ih2 =>
    have n1 := brackets_ne h1
    have n2 := brackets_ne h2
    have s1 := abs_sum_le (l₁.map (·.val))
    have s2 := abs_sum_le (l₂.map (·.val))
    rw [List.map_map] at s1 s2
    have e : (l₁ ++ l₂).length - 1 = (l₁.length + l₂.length - 2) + 1 := by simp; omega
    have t1 : 0 ≤ (l₁.map fun a => |a.val|).sum := (abs_nonneg _).trans s1
    have t2 : 0 ≤ (l₂.map fun a => |a.val|).sum := (abs_nonneg _).trans s2
    rw [e, List.map_append, List.map_append, List.sum_append, List.sum_append, Flt.add_val]
    refine fl_add_err (ih1.trans ?_) (ih2.trans ?_) s1 s2
    · exact mul_le_mul_of_nonneg_right (growth_mono (by omega)) t1
    · exact mul_le_mul_of_nonneg_right (growth_mono (by omega)) t2

theorem brackets_exact (hp : 1 ≤ p) {e : ℤ} {l : List (Flt p)} {v : Flt p} (h : Brackets (· + ·) l v)
    (hq : ∀ a ∈ l, Quant e a.val) (hb : (l.map fun a => |a.val|).sum ≤ 2 ^ p * (2 : ℝ) ^ e) :
    v.val = (l.map (·.val)).sum ∧ Quant e v.val := by
  induction h with
  | one a => simpa using hq a (by simp)
  | @node l₁ l₂ a b h1 h2 ih1 ih2 =>
    have s1 := abs_sum_le (l₁.map (·.val))
    have s2 := abs_sum_le (l₂.map (·.val))
    rw [List.map_map] at s1 s2
    have t1 : 0 ≤ (l₁.map fun a => |a.val|).sum := (abs_nonneg _).trans s1
    have t2 : 0 ≤ (l₂.map fun a => |a.val|).sum := (abs_nonneg _).trans s2
    rw [List.map_append, List.sum_append] at hb
    obtain ⟨e1, q1⟩ := ih1 (fun a ha => hq a (by simp [ha])) (by linarith)
    obtain ⟨e2, q2⟩ := ih2 (fun a ha => hq a (by simp [ha])) (by linarith)
    have hx : (a + b).val = a.val + b.val := by
      rw [Flt.add_val]
      refine (q1.add q2).fl hp ((abs_add_le _ _).trans ?_)
      rw [e1, e2]
      exact (add_le_add s1 s2).trans hb
    rw [hx, List.map_append, List.sum_append, e1, e2]
    exact ⟨rfl, e1 ▸ e2 ▸ q1.add q2⟩

/-! ### Loops -/

theorem loop_run {β α : Type} {R : Nat → ℝ → ℝ → α → Prop} {body : α → β → Res α} {c : Nat} {g h : β → ℝ}
    (l : List β)
    (hb : ∀ b ∈ l, ∀ k S A s, R k S A s → ∃ s' n, body s b = .ok s' ∧ n ≤ c ∧ R (k + n) (S + g b) (A + h b) s')
    {k : Nat} {S A : ℝ} {s : α} (hR : R k S A s) :
    ∃ s' n, loop body l s = .ok s' ∧ n ≤ l.length * c ∧ R (k + n) (S + (l.map g).sum) (A + (l.map h).sum) s' := by
  induction l generalizing k S A s with
  | nil => exact ⟨s, 0, rfl, by simp, by simpa using hR⟩
  | cons b bs ih =>
    obtain ⟨s1, n1, e1, hn1, r1⟩ := hb b (by simp) k S A s hR
    obtain ⟨s2, n2, e2, hn2, r2⟩ := ih (fun b hb' => hb b (by simp [hb'])) r1
    refine ⟨s2, n1 + n2, ?_, ?_, ?_⟩
    · simp only [loop, e1, Res.ok_bind, e2]
    · simp only [List.length_cons]
      have : (bs.length + 1) * c = bs.length * c + c := by ring
      omega
    · rw [List.map_cons, List.sum_cons, List.map_cons, List.sum_cons, ← add_assoc, ← add_assoc, ← add_assoc]
      exact r2

theorem intRange_length (a b : Int) : (intRange a b).length = (b - a + 1).toNat := by simp [intRange]

theorem mem_intRange {a b y : Int} (h : y ∈ intRange a b) : a ≤ y ∧ y ≤ b := by
  unfold intRange at h
  rw [List.mem_map] at h
  obtain ⟨k, hk, rfl⟩ := h
  have := List.mem_range.mp hk
  omega

theorem conv2Pixel_run {α : Type} [Zero α] [Add α] [Mul α] {v : α → ℝ} {R : Nat → ℝ → ℝ → α → Prop}
    {x yf : Image α} {w1 h1 w2 h2 : Nat}
    {fx fy : Nat → Nat → α} (sx : x.Shows w1 h1 fx)
    (sy : yf.Shows w2 h2 (fun x y => fy (w2 - 1 - x) (h2 - 1 - y)))
    (i j : Nat) (hw1 : 0 < w1) (hw2 : 0 < w2) (h0 : R 0 0 0 0)
    (hs : ∀ a b c d, a < w1 → b < h1 → c < w2 → d < h2 → ∀ k S A s, R k S A s →
      R (k + 1) (S + v (fx a b) * v (fy c d)) (A + |v (fx a b) * v (fy c d)|) (s + fx a b * fy c d)) :
    ∃ s n, conv2Pixel x yf i j = .ok s ∧ n ≤ min w1 w2 * min h1 h2 ∧
      R n (convAt w1 h1 (fun a b => v (fx a b)) w2 h2 (fun a b => v (fy a b)) i j)
        (convAt w1 h1 (fun a b => |v (fx a b)|) w2 h2 (fun a b => |v (fy a b)|) i j) s := by
  unfold conv2Pixel convAt
  simp only [sx.width, sx.height, sy.width, sy.height]
  have hsum : ∀ (fX fY : Nat → Nat → ℝ),
      ((intRange (max 0 ((j : Int) - h2 + 1)) (min ((h1 : Int) - 1) j)).map fun y1 : Int =>
        ((intRange (max 0 ((i : Int) - w2 + 1)) (min ((w1 : Int) - 1) i)).map fun x1 : Int =>
          fX x1.toNat y1.toNat * zeroExt w2 h2 fY ((i : Int) - x1) ((j : Int) - y1)).sum).sum =
      (Finset.range h1).sum fun l => (Finset.range w1).sum fun k =>
        fX k l * zeroExt w2 h2 fY ((i : Int) - k) ((j : Int) - l) := by
    intro fX fY
    apply sum_intRange _ _ _ _ h1 (by omega) (by omega)
    · intro l _ _
      apply sum_intRange _ _ _ _ w1 (by omega) (by omega)
      · intro k _ _; simp
      · intro k hk hn; rw [zeroExt, if_neg (by omega), mul_zero]
    · intro l hl hn
      apply Finset.sum_eq_zero
      intro k _
      rw [zeroExt, if_neg (by omega), mul_zero]
  rw [← hsum, ← hsum]
  have key := loop_run (R := R) (c := min w1 w2) (s := (0 : α)) (k := 0) (S := 0) (A := 0)
    (body := fun sum y1 => do
      let x_row ← x.posUnchecked [0, y1.toNat]
      let y_f_row ← yf.posUnchecked [0, ((h2 : Int) - 1 - j + y1).toNat]
      loop (fun sum x1 => do
        let a ← pget x.data x_row x1
        let b ← pget yf.data y_f_row ((w2 : Int) - 1 - i + x1)
        .ok (sum + a * b)) (intRange (max 0 ((i : Int) - w2 + 1)) (min ((w1 : Int) - 1) i)) sum)
    (g := fun y1 : Int => ((intRange (max 0 ((i : Int) - w2 + 1)) (min ((w1 : Int) - 1) i)).map fun x1 : Int =>
          v (fx x1.toNat y1.toNat) * zeroExt w2 h2 (fun a b => v (fy a b)) ((i : Int) - x1) ((j : Int) - y1)).sum)
    (h := fun y1 : Int => ((intRange (max 0 ((i : Int) - w2 + 1)) (min ((w1 : Int) - 1) i)).map fun x1 : Int =>
          |v (fx x1.toNat y1.toNat)| * zeroExt w2 h2 (fun a b => |v (fy a b)|) ((i : Int) - x1) ((j : Int) - y1)).sum)
    (intRange (max 0 ((j : Int) - h2 + 1)) (min ((h1 : Int) - 1) j)) ?_ h0
  · obtain ⟨s, n, e, hn, hR⟩ := key
    refine ⟨s, n, e, hn.trans ?_, by simpa using hR⟩
    rw [intRange_length, Nat.mul_comm]
    exact Nat.mul_le_mul_left _ (by omega)
  · intro y1 hy1 k S A s hR
    have hy := mem_intRange hy1
    obtain ⟨pp, ep, gp⟩ := row_get sx (x := 0) (y := y1.toNat) hw1 (by omega)
    obtain ⟨q, eq, gq⟩ := row_get sy (x := 0) (y := ((h2 : Int) - 1 - j + y1).toNat) hw2 (by omega)
    simp only [ep, eq, Res.ok_bind]
    obtain ⟨s', n, e, hn, hR'⟩ := loop_run (R := R) (c := 1) (s := s) (k := k) (S := S) (A := A)
      (body := fun sum x1 => do
        let a ← pget x.data pp x1
        let b ← pget yf.data q ((w2 : Int) - 1 - i + x1)
        .ok (sum + a * b))
      (g := fun x1 : Int =>
          v (fx x1.toNat y1.toNat) * zeroExt w2 h2 (fun a b => v (fy a b)) ((i : Int) - x1) ((j : Int) - y1))
      (h := fun x1 : Int =>
          |v (fx x1.toNat y1.toNat)| * zeroExt w2 h2 (fun a b => |v (fy a b)|) ((i : Int) - x1) ((j : Int) - y1))
      (intRange (max 0 ((i : Int) - w2 + 1)) (min ((w1 : Int) - 1) i)) (by
        intro x1 hx1 k S A s hR
        have hx := mem_intRange hx1
        have e1 : w2 - 1 - ((w2 : Int) - 1 - i + x1).toNat = ((i : Int) - x1).toNat := by omega
        have e2 : h2 - 1 - ((h2 : Int) - 1 - j + y1).toNat = ((j : Int) - y1).toNat := by omega
        refine ⟨s + fx x1.toNat y1.toNat * fy ((i : Int) - x1).toNat ((j : Int) - y1).toNat, 1, ?_, le_rfl, ?_⟩
        · rw [gp x1 (by omega) (by omega), gq _ (by omega) (by omega)]
          simp only [Res.ok_bind, e1, e2]
        · rw [zeroExt, if_pos (by omega), zeroExt, if_pos (by omega), ← abs_mul]
          exact hs _ _ _ _ (by omega) (by omega) (by omega) (by omega) _ _ _ _ hR) hR
    refine ⟨s', n, e, hn.trans ?_, hR'⟩
    rw [intRange_length, Nat.mul_one]
    omega

/-- `conv2` from the values of its pixels, for any element type. -/
theorem conv2Ord_of_pixels {α : Type} [Zero α] [Add α] [Mul α] {x y : Image α} {w1 h1 w2 h2 : Nat}
    {fx fy : Nat → Nat → α} (sx : x.Shows w1 h1 fx) (sy : y.Shows w2 h2 fy)
    (hw1 : 0 < w1) (hh1 : 0 < h1) (hw2 : 0 < w2) (hh2 : 0 < h2)
    (hf : (w1 + w2) * (h1 + h2) < 2 ^ 64) (P : Nat → Nat → α)
    (hP : ∀ yf : Image α, yf.Shows w2 h2 (fun x y => fy (w2 - 1 - x) (h2 - 1 - y)) →
      ∀ i j, conv2Pixel x yf i j = .ok (P i j)) (order : List Nat)
    (ho : order.Perm (List.range ((w1 + w2 - 1) * (h1 + h2 - 1)))) :
    ∃ out, conv2Ord order x y false = .ok out ∧ out.Shows (w1 + w2 - 1) (h1 + h2 - 1) P ∧
      conv2Ord order x y true = subimage2d out 0 w1 h1 ((w1 + w2 - 1) / 2) ((h1 + h2 - 1) / 2) 0 := by
  have hbw : w1 + w2 < 2 ^ 64 :=
    lt_of_le_of_lt (Nat.le_mul_of_pos_right (w1 + w2) (by omega)) hf
  have hbh : h1 + h2 < 2 ^ 64 :=
    lt_of_le_of_lt (Nat.le_mul_of_pos_left (h1 + h2) (by omega)) hf
  have e1 : wsub (wadd w1 w2) 1 = w1 + w2 - 1 := by
    rw [wadd_of_lt hbw, wsub_of_le (by omega) hbw]
  have e2 : wsub (wadd h1 h2) 1 = h1 + h2 - 1 := by
    rw [wadd_of_lt hbh, wsub_of_le (by omega) hbh]
  set W' := w1 + w2 - 1 with hW
  set H' := h1 + h2 - 1 with hH
  have hW0 : 0 < W' := by omega
  have hfits : W' * H' < 2 ^ 64 := lt_of_le_of_lt (Nat.mul_le_mul (by omega) (by omega)) hf
  obtain ⟨yf, eyf, syf⟩ := flipped_shows sy hw2 hh2
  obtain ⟨out, e, s⟩ := loop_fill (fun idx => (idx % W', idx / W')) P
    (fun (output : Image α) idx => do
      let out_y ← udiv idx W'
      let out_x ← umod idx W'
      let sum ← conv2Pixel x yf out_x out_y
      output.set2u out_x out_y sum) order
    (by
      intro idx hidx im f hs
      have hlt := mem_covers ho hidx
      have hx : idx % W' < W' := Nat.mod_lt _ hW0
      have hy : idx / W' < H' := by
        rw [Nat.div_lt_iff_lt_mul hW0, Nat.mul_comm]; exact hlt
      simp only [udiv, umod, if_neg (show ¬ W' = 0 by omega), Res.ok_bind, hP yf syf]
      exact hs.set2u hx hy _)
    (by
      intro a b ha hb
      refine ⟨a + W' * b, ho.mem_iff.mpr (List.mem_range.mpr ?_), ?_⟩
      · calc a + W' * b < W' + W' * b := by omega
          _ = W' * (b + 1) := by ring
          _ ≤ W' * H' := Nat.mul_le_mul_left _ hb
      · simp [Nat.add_mul_mod_self_left, Nat.mod_eq_of_lt ha, Nat.add_mul_div_left _ _ hW0,
          Nat.div_eq_of_lt ha])
    (Image.ofSizes 0 [W', H']) _ (ofSizes_shows 0 (by omega) (by omega) hfits)
  refine ⟨out, ?_, s, ?_⟩
  · unfold conv2Ord
    simp only [sx.width, sx.height, sy.width, sy.height, e1, e2, eyf, Res.ok_bind]
    rw [e]; rfl
  · unfold conv2Ord
    simp only [sx.width, sx.height, sy.width, sy.height, e1, e2, eyf, Res.ok_bind]
    rw [e]; rfl

/-! ### Products of matrices -/

/-- The sum of products computed for one entry. -/
def dotFold {α : Type} [Zero α] [Add α] [Mul α] (n : Nat) (f g : Nat → α) : α :=
  (List.range n).foldl (fun s k => s + f k * g k) 0

theorem dotFold_succ {α : Type} [Zero α] [Add α] [Mul α] (n : Nat) (f g : Nat → α) :
    dotFold (n + 1) f g = dotFold n f g + f n * g n := by
  simp [dotFold, List.range_succ]

theorem multiply_fold {α : Type} [Zero α] [Add α] [Mul α] {A B : Mat α} {m n q : Nat} {f g : Nat → Nat → α}
    (hA : A.Reads m n f) (hB : B.Reads n q g) (hf : m * q < 2 ^ 64) :
    ∃ C, Mat.multiply A B = .ok C ∧ C.Reads m q (fun i j => dotFold n (f i) fun k => g k j) := by
  unfold Mat.multiply
  rw [if_neg (by rw [hA.cols, hB.rows]; simp), hA.rows, hB.cols, hA.cols]
  refine Mat.forUp_fill _ (fun C i j => do
        let sum ← forUp n (fun sum k => do
          let a ← A.get i k
          let b ← B.get k j
          .ok (sum + a * b)) 0
        C.set i j sum) ?_ _ _ (Mat.mk'_reads 0 hf)
  intro r c hr hc C k hC
  obtain ⟨s, e, hs⟩ := forUp_inv (n := n) (body := fun sum k => do
          let a ← A.get r k
          let b ← B.get k c
          .ok (sum + a * b)) (fun k s => s = dotFold k (f r) fun k => g k c)
    (fun k s hk hs => ⟨s + f r k * g k c, by simp [hA.get hr hk, hB.get hk hc], by rw [hs, dotFold_succ]⟩) 0
    (by simp [dotFold])
  rw [e, hs]
  simp only [Res.ok_bind]
  exact hC.set hr hc _

theorem dotFold_run (hp : 1 ≤ p) (e : ℤ) (n : Nat) (f g : Nat → Flt p) :
    Run p e (∀ k < n, Quant e ((f k).val * (g k).val)) n
      ((Finset.range n).sum fun k => (f k).val * (g k).val)
      ((Finset.range n).sum fun k => |(f k).val * (g k).val|) (dotFold n f g) := by
  have : ∀ k ≤ n, Run p e (∀ k < n, Quant e ((f k).val * (g k).val)) k
      ((Finset.range k).sum fun k => (f k).val * (g k).val)
      ((Finset.range k).sum fun k => |(f k).val * (g k).val|) (dotFold k f g) := by
    intro k
    induction k with
    | zero => intro _; simpa [dotFold] using Run.init e _
    | succ k ih =>
      intro hk
      rw [Finset.sum_range_succ, Finset.sum_range_succ, dotFold_succ]
      exact (ih (by omega)).step hp fun h => h k (by omega)
  exact this n le_rfl

theorem dotFold_single (hp : 1 ≤ p) (n : Nat) (f g : Nat → Flt p) (j : Nat)
    (h1 : (g j).val = 1) (h0 : ∀ k, k ≠ j → (g k).val = 0) :
    dotFold n f g = if j < n then f j else 0 := by
  induction n with
  | zero => simp [dotFold]
  | succ n ih =>
    rw [dotFold_succ, ih]
    by_cases hj : j = n
    · subst hj
      rw [if_neg (lt_irrefl _), if_pos (by omega)]
      apply Flt.ext
      rw [Flt.add_val, Flt.mul_val, h1, mul_one, fl_of_rep hp (f j).rep, Flt.zero_val, zero_add,
        fl_of_rep hp (f j).rep]
    · have hc : (if j < n + 1 then f j else 0) = if j < n then f j else (0 : Flt p) := by
        by_cases h : j < n
        · rw [if_pos h, if_pos (by omega)]
        · rw [if_neg h, if_neg (by omega)]
      rw [hc]
      apply Flt.ext
      rw [Flt.add_val, Flt.mul_val, h0 n (fun h => hj h.symm), mul_zero, fl_zero, add_zero,
        fl_of_rep hp (Flt.rep _)]

end TinyDIP.Rnd
