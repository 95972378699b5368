import Verif.Model.PixelTypes
import Verif.Lemmas.Pixelwise
import Verif.Lemmas.Recursive
import Verif.Lemmas.CliNum
import Mathlib.Tactic.Linarith
import Mathlib.Tactic.Positivity
import Mathlib.Algebra.Order.BigOperators.Group.List

/-!
# Properties C124 (pixel and point types) and C125 (sums of components)
-/

namespace TinyDIP.Props

open TinyDIP PixT

/-! ### C124 -/

/-- 8-bit pixels: `+` and `-` act channel by channel modulo 256, so that they undo each other, and `+` is
commutative and associative. -/
theorem C124_rgb (a b c : RGB) :
    (∀ i x y z, a.channel i = .ok x → b.channel i = .ok y → (rgbAdd a b).channel i = .ok z →
      z.toNat = (x.toNat + y.toNat) % 256) ∧
    (∀ i x y z, a.channel i = .ok x → b.channel i = .ok y → (rgbSub a b).channel i = .ok z →
      (z.toNat : Int) = ((x.toNat : Int) - y.toNat) % 256) ∧
    rgbSub (rgbAdd a b) b = a ∧ rgbAdd (rgbSub a b) b = a ∧
    rgbAdd a b = rgbAdd b a ∧ rgbAdd (rgbAdd a b) c = rgbAdd a (rgbAdd b c) := by
  have add : ∀ x y : BitVec 8, BitVec.ofInt 8 ((y.toNat : Int) + x.toNat) = x + y := by
    intro x y
    apply BitVec.eq_of_toNat_eq
    rw [BitVec.toNat_ofInt, BitVec.toNat_add]
    omega
  have sub : ∀ x y : BitVec 8, BitVec.ofInt 8 ((x.toNat : Int) - y.toNat) = x - y := by
    intro x y
    apply BitVec.eq_of_toNat_eq
    rw [BitVec.toNat_ofInt, BitVec.toNat_sub]
    have := y.isLt
    omega
  obtain ⟨a0, a1, a2⟩ := a
  obtain ⟨b0, b1, b2⟩ := b
  obtain ⟨c0, c1, c2⟩ := c
  simp only [rgbAdd, rgbSub, add, sub]
  refine ⟨?_, ?_, ?_, ?_, ?_, ?_⟩
  · intro i x y z hx hy hz
    match i with
    | 0 | 1 | 2 =>
      simp only [Px3.channel, Res.ok.injEq] at hx hy hz
      subst hx hy hz
      simp [BitVec.toNat_add]
    | n + 3 => simp [Px3.channel] at hx
  · intro i x y z hx hy hz
    match i with
    | 0 | 1 | 2 =>
      simp only [Px3.channel, Res.ok.injEq] at hx hy hz
      subst hx hy hz
      rw [BitVec.toNat_sub]
      omega
    | n + 3 => simp [Px3.channel] at hx
  · have h : ∀ x y : BitVec 8, x + y - y = x := fun x y => by
      rw [BitVec.sub_eq_add_neg, BitVec.add_assoc, ← BitVec.sub_eq_add_neg, BitVec.sub_self, BitVec.add_zero]
    simp only [h]
  · have h : ∀ x y : BitVec 8, x - y + y = x := fun x y => BitVec.sub_add_cancel x y
    simp only [h]
  · simp [BitVec.add_comm]
  · simp [BitVec.add_assoc]

example : rgbAdd ⟨200, 1, 255⟩ ⟨100, 2, 1⟩ = ⟨44, 3, 0⟩ ∧ rgbSub ⟨1, 2, 0⟩ ⟨2, 1, 255⟩ = ⟨255, 1, 1⟩ := by
  decide

/-- Pixels with real channels: `+` and `-` act channel by channel and undo each other. -/
theorem C124_real {K : Type} [Field K] (a b c : Px3 K) :
    dblAdd a b = ⟨a.c0 + b.c0, a.c1 + b.c1, a.c2 + b.c2⟩ ∧
    dblSub a b = ⟨a.c0 - b.c0, a.c1 - b.c1, a.c2 - b.c2⟩ ∧
    dblSub (dblAdd a b) b = a ∧ dblAdd (dblSub a b) b = a ∧ dblAdd a b = dblAdd b a ∧
    dblAdd (dblAdd a b) c = dblAdd a (dblAdd b c) := by
  obtain ⟨a0, a1, a2⟩ := a
  obtain ⟨b0, b1, b2⟩ := b
  obtain ⟨c0, c1, c2⟩ := c
  simp only [dblAdd, dblSub]
  refine ⟨?_, ?_, ?_, ?_, ?_, ?_⟩ <;> congr 1 <;> first | ring | simp

theorem arrayOp_eq {α : Type} (op : α → α → α) (init a b : List α) (hi : init.length = a.length)
    (hb : b.length = a.length) : arrayOp op init a b = .ok (List.zipWith op a b) := by
  rw [← List.map_uncurry_zip_eq_zipWith, arrayOp, forUp]
  refine loop_listMap (n := a.length) (a.zip b) (by simp [hb]) (Function.uncurry op) _ _ ?_ init hi
    (List.Perm.refl _)
  intro i hm p hp d hd
  have hlt : i < a.length := List.mem_range.mp hm
  rw [List.getElem?_zip_eq_some] at hp
  obtain ⟨p1, p2⟩ := hp
  simp only [vget, p1, p2, Res.ok_bind, vset, hd, hlt, if_true]
  rfl

/-- Arrays of channels or coordinates: the operator succeeds and combines equal positions, whatever the
uninitialised result array held. -/
theorem C124_array {α : Type} (op : α → α → α) (init a b : List α) (hi : init.length = a.length)
    (hb : b.length = a.length) :
    ∃ out, arrayOp op init a b = .ok out ∧ out.length = a.length ∧
      ∀ (i : Nat) x y, a[i]? = some x → b[i]? = some y → out[i]? = some (op x y) := by
  exact ⟨_, arrayOp_eq op init a b hi hb, by simp [hb], fun i x y hx hy => by
    simp [List.getElem?_zipWith, hx, hy]⟩

example := C124_array (fun a b : Nat => a + 2 * b) [9, 9, 9] [1, 2, 3] [5, 6, 7] rfl rfl

/-- `Point` arithmetic: subtraction undoes addition and addition undoes subtraction, for all
coordinates. -/
theorem C124_point (i1 i2 p q : List Nat) (h1 : i1.length = p.length) (h2 : i2.length = p.length)
    (hq : q.length = p.length) (hp : ∀ x ∈ p, x < 2 ^ 64) (hq' : ∀ x ∈ q, x < 2 ^ 64) :
    (∃ s, pointAdd i1 p q = .ok s ∧ pointSub i2 s q = .ok p) ∧
    (∃ s, pointSub i1 p q = .ok s ∧ pointAdd i2 s q = .ok p) := by
  have key : ∀ f g : Nat → Nat → Nat, (∀ x y, x < 2 ^ 64 → y < 2 ^ 64 → g (f x y) y = x) →
      ∃ s, arrayOp f i1 p q = .ok s ∧ arrayOp g i2 s q = .ok p := by
    intro f g hfg
    refine ⟨_, arrayOp_eq f i1 p q h1 hq, ?_⟩
    rw [arrayOp_eq g i2 _ q (by simp [h2, hq]) (by simp [hq])]
    congr 1
    apply List.ext_getElem
    · simp [hq]
    · intro i hi hi'
      simp only [List.getElem_zipWith]
      exact hfg _ _ (hp _ (List.getElem_mem _)) (hq' _ (List.getElem_mem _))
  refine ⟨key wadd wsub ?_, key wsub wadd ?_⟩
  · intro x y hx hy
    simp only [wadd, wsub, W]
    omega
  · intro x y hx hy
    simp only [wadd, wsub, W]
    omega

example := C124_point [0, 0] [5, 5] [2 ^ 64 - 1, 3] [2, 4] rfl rfl rfl (by decide) (by decide)

/-- `operator<` of `HSV` is a strict total order compatible with `==`, so `HSV` works as the key of a map:
irreflexive, transitive, and exactly one of `a < b`, `a == b`, `b < a` holds. Missing: channels that are NaN, see
`C124_hsv_nan_violation`. -/
theorem C124_hsv_order_partial {K : Type} [LinearOrder K] (a b c : Px3 K) :
    let lt := hsvLt (fun x y : K => decide (x < y))
    lt a a = false ∧ (lt a b = true → lt b c = true → lt a c = true) ∧
    (lt a b = true ∨ a = b ∨ lt b a = true) ∧ (lt a b = true → a ≠ b ∧ lt b a = false) := by
  have key : ∀ p q : Px3 K, hsvLt (fun x y : K => decide (x < y)) p q = true ↔
      p.c0 < q.c0 ∨ p.c0 = q.c0 ∧ (p.c1 < q.c1 ∨ p.c1 = q.c1 ∧ p.c2 < q.c2) := by
    intro p q
    simp only [hsvLt, Bool.or_eq_true, Bool.and_eq_true, Bool.not_eq_true', decide_eq_true_eq,
      decide_eq_false_iff_not, not_lt]
    constructor
    · rintro (h | ⟨h, h' | ⟨h', h''⟩⟩)
      · exact .inl h
      · rcases h.lt_or_eq with h | h
        · exact .inl h
        · exact .inr ⟨h, .inl h'⟩
      · rcases h.lt_or_eq with h | h
        · exact .inl h
        · rcases h'.lt_or_eq with h' | h'
          · exact .inr ⟨h, .inl h'⟩
          · exact .inr ⟨h, .inr ⟨h', h''⟩⟩
    · rintro (h | ⟨h, h' | ⟨h', h''⟩⟩)
      · exact .inl h
      · exact .inr ⟨h.le, .inl h'⟩
      · exact .inr ⟨h.le, .inr ⟨h'.le, h''⟩⟩
  obtain ⟨a0, a1, a2⟩ := a
  obtain ⟨b0, b1, b2⟩ := b
  obtain ⟨c0, c1, c2⟩ := c
  simp only [← Bool.not_eq_true, key, Px3.mk.injEq]
  refine ⟨by simp, ?_, ?_, ?_⟩
  · rintro (h | ⟨rfl, h | ⟨rfl, h⟩⟩) (g | ⟨rfl, g | ⟨rfl, g⟩⟩)
    · exact .inl (h.trans g)
    · exact .inl h
    · exact .inl h
    · exact .inl g
    · exact .inr ⟨rfl, .inl (h.trans g)⟩
    · exact .inr ⟨rfl, .inl h⟩
    · exact .inl g
    · exact .inr ⟨rfl, .inl g⟩
    · exact .inr ⟨rfl, .inr ⟨rfl, h.trans g⟩⟩
  · rcases lt_trichotomy a0 b0 with h | rfl | h
    · exact .inl (.inl h)
    · rcases lt_trichotomy a1 b1 with h | rfl | h
      · exact .inl (.inr ⟨rfl, .inl h⟩)
      · rcases lt_trichotomy a2 b2 with h | rfl | h
        · exact .inl (.inr ⟨rfl, .inr ⟨rfl, h⟩⟩)
        · exact .inr (.inl ⟨rfl, rfl, rfl⟩)
        · exact .inr (.inr (.inr ⟨rfl, .inr ⟨rfl, h⟩⟩))
      · exact .inr (.inr (.inr ⟨rfl, .inl h⟩))
    · exact .inr (.inr (.inl h))
  · rintro (h | ⟨rfl, h | ⟨rfl, h⟩⟩)
    · exact ⟨fun e => h.ne (by injection e), by
        rintro (g | ⟨rfl, -⟩)
        · exact lt_asymm h g
        · exact lt_irrefl _ h⟩
    · exact ⟨fun e => h.ne (by injection e), by
        rintro (g | ⟨-, g | ⟨rfl, -⟩⟩)
        · exact lt_irrefl _ g
        · exact lt_asymm h g
        · exact lt_irrefl _ h⟩
    · exact ⟨fun e => h.ne (by injection e), by
        rintro (g | ⟨-, g | ⟨-, g⟩⟩)
        · exact lt_irrefl _ g
        · exact lt_irrefl _ g
        · exact lt_asymm h g⟩

/-- With a NaN channel the order is not a strict weak order: being equivalent is not transitive. -/
theorem C124_hsv_nan_violation :
    let lt := hsvLt (nanLt (K := ℚ))
    ∃ a b c : Px3 (Option ℚ), (lt a b = false ∧ lt b a = false) ∧ (lt b c = false ∧ lt c b = false) ∧
      lt a c = true := by
  refine ⟨⟨some 0, some 0, some 0⟩, ⟨none, some 0, some 0⟩, ⟨some 1, some 0, some 0⟩, ?_⟩
  decide

theorem field_inj {m n : Nat} {c : Char} (hc : c.isDigit = false) {r s : List Char}
    (h : Cli.toStr m ++ c :: r = Cli.toStr n ++ c :: s) : m = n ∧ r = s := by
  have cut : ∀ (k : Nat) (t : List Char), (Cli.toStr k ++ c :: t).takeWhile Char.isDigit = Cli.toStr k := by
    intro k t
    rw [List.takeWhile_append_of_pos (fun d hd => Cli.isDigit_toStr hd), List.takeWhile_cons, hc]
    simp
  have e := congrArg (List.takeWhile Char.isDigit) h
  rw [cut, cut] at e
  rw [e] at h
  exact ⟨Cli.toStr_inj e, by simpa using h⟩

/-- The text of a pixel determines the pixel. -/
theorem C124_text (p q : RGB) (h : rgbText p = rgbText q) : p = q := by
  obtain ⟨a0, a1, a2⟩ := p
  obtain ⟨b0, b1, b2⟩ := q
  simp only [rgbText, List.cons_append, List.append_assoc, List.cons.injEq, true_and, List.nil_append] at h
  obtain ⟨e0, h⟩ := field_inj (by decide) h
  simp only [List.cons.injEq, true_and] at h
  obtain ⟨e1, h⟩ := field_inj (by decide) h
  simp only [List.cons.injEq, true_and] at h
  obtain ⟨e2, -⟩ := field_inj (by decide) h
  rw [BitVec.eq_of_toNat_eq e0, BitVec.eq_of_toNat_eq e1, BitVec.eq_of_toNat_eq e2]

example : rgbText ⟨255, 0, 16⟩ = "{255, 0, 16}".toList := by decide +kernel

/-! ### C125 -/

variable {τ E : Type}

/-- Without a policy the components are combined from left to right, starting with the value-initialised
one; with the default addition this is their sum. -/
theorem C125_sequential [AddCommMonoid E] (get : τ → E) (l : List τ) :
    sumElement get 0 (· + ·) l = (l.map get).sum := by
  have : ∀ z : E, sumElement get z (· + ·) l = z + (l.map get).sum := by
    induction l with
    | nil => intro z; simp [sumElement]
    | cons a l ih =>
      intro z
      have := ih (z + get a)
      simp only [sumElement, List.foldl_cons] at this ⊢
      rw [this, List.map_cons, List.sum_cons, add_assoc]
  simpa using this 0

/-- With a policy, and for `sum_n_th_element` always, the order is open; for an associative and commutative function
the only possible result is the left-to-right one. Missing: other functions, see `C125_policy_violation`. -/
theorem C125_policy_partial (get : τ → E) (init : E) (f : E → E → E) (hf : Rec.CommSemi f) (l : List τ)
    (r : E) : SumElementPar get init f l r ↔ r = sumElement get init f l := by
  have e : sumElement get init f l = (l.map get).foldl f init := by
    rw [sumElement, List.foldl_map]
  rw [e]
  constructor
  · intro h
    exact h.eq hf _ _ (List.Perm.refl _)
  · rintro rfl
    exact Rec.GSum.of_foldl f init _

example (r : Int) := C125_policy_partial (fun p : Int × Int => p.2) 10 (· + ·) ⟨fun a b c => Int.add_assoc a b c, Int.add_comm⟩
  [(1, 2), (3, 4), (5, 6)] r

/-- For other functions the versions can differ. -/
theorem C125_policy_violation :
    sumElement (fun p : Int × Int => p.1) 0 (· - ·) [(5, 0), (3, 0)] = -8 ∧
    SumElementPar (fun p : Int × Int => p.1) 0 (· - ·) [(5, 0), (3, 0)] 2 := by
  refine ⟨rfl, ?_⟩
  have h1 : Rec.GSum (fun a b : Int => a - b) [3, 0] 3 :=
    .split (l₁ := [3]) (l₂ := [0]) (List.Perm.refl _) (by simp) (by simp) (.one 3) (.one 0)
  exact .split (l := [0, 5, 3]) (l₁ := [5]) (l₂ := [3, 0]) (by decide) (by simp) (by simp) (.one 5) h1

/-- `hypot(x1, ..., xn)` is the Euclidean length: the root of the sum of squares, in whatever order the
arguments come, at least every |xi|, and zero exactly when all are zero. -/
theorem C125_hypot (xs : List ℝ) (h : xs ≠ []) :
    ∃ r, hypot xs = some r ∧ 0 ≤ r ∧ r ^ 2 = (xs.map fun x => x ^ 2).sum ∧ (∀ x ∈ xs, |x| ≤ r) ∧
      (r = 0 ↔ ∀ x ∈ xs, x = 0) ∧ ∀ ys, xs.Perm ys → hypot ys = some r := by
  have go : ∀ (a : ℝ) l, hypot.go a l = ((a :: l).map fun x => x ^ 2).sum := by
    intro a l
    induction l generalizing a with
    | nil => simp [hypot.go]
    | cons b l ih => rw [hypot.go, ih]; simp
  have eq : ∀ l : List ℝ, l ≠ [] → hypot l = some (Real.sqrt (l.map fun x => x ^ 2).sum) := by
    intro l hl
    cases l with
    | nil => exact absurd rfl hl
    | cons a l => rw [hypot, go]
  have nn : ∀ y ∈ xs.map fun x : ℝ => x ^ 2, 0 ≤ y := by
    intro y hy
    obtain ⟨x, -, rfl⟩ := List.mem_map.mp hy
    positivity
  have pos : 0 ≤ (xs.map fun x : ℝ => x ^ 2).sum := List.sum_nonneg nn
  refine ⟨_, eq xs h, Real.sqrt_nonneg _, Real.sq_sqrt pos, ?_, ?_, ?_⟩
  · intro x hx
    apply Real.abs_le_sqrt
    exact List.single_le_sum nn _ (List.mem_map_of_mem hx)
  · rw [Real.sqrt_eq_zero pos]
    constructor
    · intro h0 x hx
      have := List.single_le_sum nn _ (List.mem_map_of_mem hx)
      nlinarith [sq_nonneg x]
    · intro h0
      apply List.sum_eq_zero
      intro y hy
      obtain ⟨x, hx, rfl⟩ := List.mem_map.mp hy
      simp [h0 x hx]
  · intro ys hp
    have hy : ys ≠ [] := fun e => h (by subst e; exact hp.eq_nil)
    rw [eq ys hy, (hp.map _).sum_eq]

example : ∃ r, hypot [3, -4] = some r ∧ r ^ 2 = 25 := by
  obtain ⟨r, h, -, h2, -⟩ := C125_hypot [3, -4] (by simp)
  exact ⟨r, h, by rw [h2]; norm_num⟩

example : pointAdd [0, 0] [2 ^ 64 - 1, 3] [2, 4] = .ok [1, 7] ∧
    pointSub [0, 0] [1, 7] [2, 4] = .ok [2 ^ 64 - 1, 3] := by decide +kernel

end TinyDIP.Props
