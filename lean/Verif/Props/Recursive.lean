import Verif.Lemmas.Samples
import Verif.Lemmas.Recursive
import Mathlib.Algebra.Order.Ring.Rat
import Mathlib.Algebra.BigOperators.Ring.List
import Mathlib.Algebra.Order.BigOperators.Group.List
import Mathlib.Tactic.FieldSimp
import Mathlib.Tactic.LinearCombination
import Mathlib.Tactic.Positivity

/-!
# Nested containers: C70, C92-C98
-/

namespace TinyDIP.Props

open TinyDIP Rec

variable {α β T : Type}

/-! ## C70 agreement with the flat operations -/

/-- Every depth, container and function: the result has the same size at every level, its leaves are the
images of the leaves in the same order, and it is the only container with these two properties. -/
theorem C70_transform (f : α → β) (n : Nat) (l : Nest α n) :
    ∃ out, recTransform (fun a => .ok (f a)) n l = .ok out ∧ SameShape n l out ∧
      leaves n out = (leaves n l).map f ∧
      ∀ out', SameShape n l out' → leaves n out' = (leaves n l).map f → out' = out :=
  ⟨_, recTransform_ok n l fun _ _ => rfl, sameShape_mapNest f n l, leaves_mapNest f n l,
    fun _ hs hl => eq_of_shape n _ _ l hs (sameShape_mapNest f n l) (hl.trans (leaves_mapNest f n l).symm)⟩

example := C70_transform (fun a : Nat => a * a) 3 [[[1, 2], []], [], [[3]]]

/-- A function that throws at some leaf makes the whole call throw, at every depth. -/
theorem C70_transform_throw (f : α → Res β) (e : Exc) (hf : ∀ a, (∃ b, f a = .ok b) ∨ f a = .throw e)
    (n : Nat) (l : Nest α n) (h : ∃ a ∈ leaves n l, f a = .throw e) : recTransform f n l = .throw e :=
  recTransform_throw hf n l h

example : recTransform (α := Nat) (fun a => if a = 3 then .throw .runtime else .ok (10 * a)) 2 [[1, 2], [], [3, 4]]
    = .throw .runtime :=
  C70_transform_throw _ .runtime (fun a => by by_cases h : a = 3 <;> simp [h]) 2 _ ⟨3, by decide, rfl⟩

/-- With an execution policy: every order in which the elements are processed, at every level, gives the
same result as the sequential call. -/
theorem C70_transform_policy (sched : List Nat → Nat → List Nat)
    (hs : ∀ path k, (sched path k).Perm (List.range k)) (f : α → β) (d : β) (n : Nat) (l : Nest α n) :
    ∃ out, recTransform (fun a => .ok (f a)) n l = .ok out ∧ recTransformPar sched f d n [] l = .ok out :=
  ⟨_, recTransform_ok n l fun _ _ => rfl, recTransformPar_ok hs f d n [] l⟩

example := C70_transform_policy (fun _ k => (List.range k).reverse) (fun _ k => (List.range k).reverse_perm)
  (fun a : Nat => a * a) 0 3 [[[1, 2], []], [], [[3]]]

/-- `recursive_reduce` is the left fold over the leaves. -/
theorem C70_reduce (f : β → α → β) (n : Nat) (l : Nest α n) (init : β) :
    recReduce f n l init = (leaves n l).foldl f init := recReduce_eq f n l init

/-- `recursive_all_of`, `recursive_any_of`, `recursive_none_of`, `recursive_find_if` and
`recursive_find` quantify over the leaves. -/
theorem C70_predicates [DecidableEq α] (p : α → Bool) (t : α) (n : Nat) (l : Nest α n) :
    (recAllOf p n l = true ↔ ∀ a ∈ leaves n l, p a = true) ∧
    (recFindIf p n l = true ↔ ∃ a ∈ leaves n l, p a = true) ∧
    (recAnyOf p n l = true ↔ ∃ a ∈ leaves n l, p a = true) ∧
    (recNoneOf p n l = true ↔ ∀ a ∈ leaves n l, p a = false) ∧
    (recFind t n l = true ↔ t ∈ leaves n l) := by
  refine ⟨?_, ?_, ?_, ?_, ?_⟩
  · rw [recAllOf_iff, List.all_eq_true]
  · rw [recFindIf_iff, List.any_eq_true]
  · rw [recAnyOf, recFindIf_iff, List.any_eq_true]
  · rw [recNoneOf, recAnyOf, recFindIf_iff, Bool.not_eq_true', List.any_eq_false]
    simp
  · rw [recFind_iff, List.any_eq_true]
    exact ⟨fun ⟨v, hv, e⟩ => (beq_iff_eq.1 e) ▸ hv, fun h => ⟨t, h, beq_iff_eq.2 rfl⟩⟩

/-- `recursive_count` and `recursive_count_if`: the only possible result, in every order of the
additions, is the number of leaves that satisfy the predicate (below 2^64 leaves). -/
theorem C70_count (p : α → Bool) (n : Nat) (l : Nest α n) (r : Nat) (h : (leaves n l).length < 2 ^ 64) :
    RecCountIf p n l r ↔ r = (leaves n l).countP p := by
  rw [recCountIf_iff, Nat.mod_eq_of_lt (lt_of_le_of_lt List.countP_le_length h)]

example : RecCountIf (fun a : Nat => a % 2 == 0) 2 [[1, 2], [], [4, 6]] 3 :=
  (C70_count _ 2 _ 3 (by decide)).mpr rfl

/-- `recursive_size`: the only possible result is the number of leaves. -/
theorem C70_size (n : Nat) (l : Nest α n) (r : Nat) (h : (leaves n l).length < 2 ^ 64) :
    RecSize n l r ↔ r = (leaves n l).length := by
  cases n with
  | zero => simp [RecSize, leaves]
  | succ n => exact recSize_iff n l r h

example : RecSize (α := Nat) 2 [[1, 2], [], [4, 6]] 4 := (C70_size 2 _ 4 (by decide)).mpr rfl

/-- `recursive_flatten` appends the leaves in order. -/
theorem C70_flatten (n : Nat) (l : Nest α (n + 1)) (out : List α) :
    recFlatten n l out = out ++ leaves (n + 1) l := recFlatten_eq n l out

example : recFlatten (α := Nat) 2 [[[1, 2], []], [], [[3]]] [9] = [9, 1, 2, 3] := C70_flatten _ _ _

/-- `recursive_size` with an unwrap level returns the size of the first innermost container only: on a container with
the same size `k ≥ 1` at every level it returns `k`, not the number of leaves `k ^ n`. Missing: the number of leaves,
see `C70_size_level_violation`. -/
theorem C70_size_level_partial (k : Nat) (hk : 0 < k) (n : Nat) (l : Nest α (n + 1)) (h : Uniform k (n + 1) l) :
    recSizeLevel n l = .ok k := by
  induction n with
  | zero => exact congrArg Res.ok h.1
  | succ n ih =>
    change List (Nest α (n + 1)) at l
    cases l with
    | nil => exact absurd h.1.symm (by simp; omega)
    | cons e es => exact ih e (h.2 e (by simp))

/-- The property fails for `recursive_size` with an unwrap level: three leaves are counted as one, and
an empty outer container throws. -/
theorem C70_size_level_violation :
    recSizeLevel (α := Nat) 1 [[1], [2, 3]] = .ok 1 ∧ (leaves (α := Nat) 2 [[1], [2, 3]]).length = 3 ∧
    recSizeLevel (α := Nat) 1 [] = .throw .outOfRange ∧ (leaves (α := Nat) 2 []).length = 0 := by
  refine ⟨rfl, rfl, rfl, rfl⟩

/-- A concrete case: three levels, empty parts, and a schedule that is not the program order. -/
example : leaves (α := Nat) 3 [[[1, 2], []], [], [[3]]] = [1, 2, 3] ∧
    recTransform (β := Nat) (fun a => .ok (a * a)) 3 [[[1, 2], []], [], [[3]]] = .ok [[[1, 4], []], [], [[9]]] ∧
    recTransformPar (fun _ k => (List.range k).reverse) (fun a : Nat => a * a) 0 3 [] [[[1, 2], []], [], [[3]]] =
      .ok [[[1, 4], []], [], [[9]]] ∧
    (∀ (path : List Nat) k, ((fun (_ : List Nat) k => (List.range k).reverse) path k).Perm (List.range k)) ∧
    recReduce (fun a b : Nat => 10 * a + b) 3 [[[1, 2], []], [], [[3]]] 0 = 123 ∧
    recAllOf (fun a : Nat => a < 3) 3 [[[1, 2], []], [], [[3]]] = false ∧
    recNoneOf (fun a : Nat => a > 3) 3 [[[1, 2], []], [], [[3]]] = true ∧
    Uniform (α := Nat) 2 2 [[1, 2], [3, 4]] :=
  ⟨rfl, rfl, rfl, fun _ _ => List.reverse_perm _, rfl, rfl, rfl, by simp [Uniform]⟩

/-! ## C92 recursive_transform_reduce -/

/-- Every depth, container, function and initial value, and every associative and commutative operation
with identity `T{}`: both versions have exactly one possible result in all orders and groupings, the
flat reduction of the transformed leaves. Missing: operations whose identity is not `T{}`. -/
theorem C92_transform_reduce_partial (op : T → T → T) (hop : CommSemi op) (zero : T) (hz : ∀ a, op a zero = a)
    (u : α → T) (n : Nat) (l : Nest α (n + 1)) (init r : T) :
    (TransformReduce op u zero (n + 1) l init r ↔ r = ((leaves (n + 1) l).map u).foldl op init) ∧
    (TransformReduceAll op u zero (n + 1) l init r ↔ r = ((leaves (n + 1) l).map u).foldl op init) :=
  ⟨transformReduce_iff hop hz u n l init r, transformReduceAll_iff hop hz u (n + 1) l init r⟩

/-- The property fails for a product: every inner level starts again from `T{} = 0`, so every possible
result is zero. -/
theorem C92_product_violation (r : Int) :
    (TransformReduce (α := Int) (fun a b : Int => a * b) id 0 2 [[2, 3], [5]] 1 r ↔ r = 0) ∧
    (TransformReduceAll (α := Int) (fun a b : Int => a * b) id 0 1 [2, 3] 1 r ↔ r = 0) ∧
    ((leaves (α := Int) 2 [[2, 3], [5]]).map id).foldl (fun a b : Int => a * b) 1 = 30 := by
  have hop : CommSemi (fun a b : Int => a * b) := ⟨fun a b c => by ring, fun a b => by ring⟩
  refine ⟨⟨?_, ?_⟩, ⟨?_, ?_⟩, rfl⟩
  · rintro ⟨vals, hv, hg⟩
    rw [forall₂_eq_map (g := fun e : List Int => e.foldl (fun a b : Int => a * b) 0) ?_ hv] at hg
    · exact hg.eq hop _ _ (List.Perm.refl _)
    · rintro a b ⟨w, hw, hgw⟩
      rw [forall₂_eq_map (g := id) (fun _ _ h => h) hw, List.map_id] at hgw
      exact hgw.eq hop _ _ (List.Perm.refl _)
  · rintro rfl
    refine ⟨[0, 0], .cons ⟨[2, 3], .cons rfl (.cons rfl .nil), ?_⟩ (.cons ⟨[5], .cons rfl .nil, ?_⟩ .nil), ?_⟩
    · exact GSum.of_foldl (fun a b : Int => a * b) 0 [2, 3]
    · exact GSum.of_foldl (fun a b : Int => a * b) 0 [5]
    · exact GSum.of_foldl (fun a b : Int => a * b) 1 [0, 0]
  · rintro ⟨vals, hv, hg⟩
    rw [forall₂_eq_map (g := fun a : Int => 0 * a) (fun _ _ h => h) hv] at hg
    exact (hg.eq hop _ _ (List.Perm.refl _)).trans (by norm_num)
  · rintro rfl
    exact ⟨[0, 0], .cons (by simp [TransformReduceAll]) (.cons (by simp [TransformReduceAll]) .nil),
      GSum.of_foldl (fun a b : Int => a * b) 1 [0, 0]⟩

/-- The hypotheses are met by a sum of squares over two levels. -/
example : TransformReduce (α := Int) (fun a b : Int => a + b) (fun x => x * x) 0 2 [[1, 2], [], [3]] 10 24 :=
  (C92_transform_reduce_partial _ ⟨fun a b c => by ring, fun a b => by ring⟩ 0 (fun a => by ring) _ 1
    [[1, 2], [], [3]] 10 24).1.2 rfl

/-! ## C93 means and variances -/

section Stats

variable {K : Type} [Field K] [LinearOrder K] [IsStrictOrderedRing K]

omit [LinearOrder K] [IsStrictOrderedRing K] in
theorem foldl_add_sum (xs : List K) (a : K) : xs.foldl (fun a x => a + x) a = a + xs.sum := by
  induction xs generalizing a with
  | nil => simp
  | cons x xs ih => rw [List.foldl_cons, ih, List.sum_cons, add_assoc]

omit [LinearOrder K] [IsStrictOrderedRing K] in
theorem arithmeticMean_ok (xs : List K) (h : xs ≠ []) : arithmeticMean xs = .ok (xs.sum / xs.length) := by
  have : xs.length ≠ 0 := by simpa using h
  rw [arithmeticMean, if_neg this, recReduce_eq, leaves_one, foldl_add_sum, zero_add]

/-- Every non-empty list: the mean times the number of elements is the sum, and it lies between every lower and every
upper bound of the elements. An empty list throws `std::logic_error`. Missing: integer result types, see
`C93_integer_mean_violation`. -/
theorem C93_mean_partial (xs : List K) (h : xs ≠ []) :
    ∃ m, arithmeticMean xs = .ok m ∧ m * xs.length = xs.sum ∧
      ∀ lo hi, (∀ x ∈ xs, lo ≤ x ∧ x ≤ hi) → lo ≤ m ∧ m ≤ hi := by
  have hn : (0 : K) < xs.length := by
    rw [Nat.cast_pos]; exact List.length_pos_iff.2 h
  refine ⟨_, arithmeticMean_ok xs h, by field_simp, fun lo hi hb => ?_⟩
  rw [le_div_iff₀ hn, div_le_iff₀ hn]
  constructor
  · have := List.card_nsmul_le_sum xs lo fun x hx => (hb x hx).1
    rw [nsmul_eq_mul] at this
    linarith [mul_comm lo (xs.length : K)]
  · have := List.sum_le_card_nsmul xs hi fun x hx => (hb x hx).2
    rw [nsmul_eq_mul] at this
    linarith [mul_comm hi (xs.length : K)]

example := C93_mean_partial [1, 2, (6 : ℚ)] (by simp)

omit [LinearOrder K] [IsStrictOrderedRing K] in
/-- An empty list has no mean and no variance: both calls throw `std::logic_error`. -/
theorem C93_empty (r : Res K) : arithmeticMean ([] : List K) = .throw .logic ∧
    (PopulationVariance ([] : List K) r ↔ r = .throw .logic) := by
  refine ⟨rfl, ?_⟩
  simp [PopulationVariance, arithmeticMean]

omit [LinearOrder K] [IsStrictOrderedRing K] in
theorem sum_sq_dev (xs : List K) (m : K) :
    (xs.map fun x => (x - m) * (x - m)).sum = (xs.map fun x => x * x).sum - 2 * m * xs.sum + xs.length * (m * m) := by
  induction xs with
  | nil => simp
  | cons x xs ih => simp only [List.map_cons, List.sum_cons, ih, List.length_cons]; push_cast; ring

/-- Every non-empty list and every order of the additions: the only possible variance is the mean of
the squared deviations; it equals the mean of the squares minus the square of the mean, it is never
negative, and it is zero exactly when all elements are equal. -/
theorem C93_variance (xs : List K) (h : xs ≠ []) (r : Res K) :
    ∃ m v : K, m * xs.length = xs.sum ∧ v * xs.length = (xs.map fun x => (x - m) ^ 2).sum ∧
      v = (xs.map fun x => x ^ 2).sum / xs.length - m ^ 2 ∧ 0 ≤ v ∧ (v = 0 ↔ ∀ x ∈ xs, x = m) ∧
      (PopulationVariance xs r ↔ r = .ok v) := by
  have hn : (0 : K) < xs.length := by
    rw [Nat.cast_pos]; exact List.length_pos_iff.2 h
  have hop : CommSemi (fun a b : K => a + b) := ⟨fun a b c => add_assoc a b c, fun a b => add_comm a b⟩
  have hsq : (xs.map fun x => (x - xs.sum / xs.length) ^ 2) =
      xs.map fun x => (x - xs.sum / xs.length) * (x - xs.sum / xs.length) :=
    List.map_congr_left fun x _ => pow_two _
  have hnn : ∀ y ∈ xs.map fun x => (x - xs.sum / xs.length) ^ 2, 0 ≤ y := by
    intro y hy
    obtain ⟨x, _, rfl⟩ := List.mem_map.1 hy
    positivity
  have hs0 := List.sum_nonneg hnn
  refine ⟨xs.sum / xs.length, (xs.map fun x => (x - xs.sum / xs.length) ^ 2).sum / xs.length, by field_simp,
    div_mul_cancel₀ _ hn.ne', ?_, div_nonneg hs0 hn.le, ?_, ?_⟩
  · rw [hsq, sum_sq_dev]
    have : (xs.map fun x => x ^ 2) = xs.map fun x => x * x := List.map_congr_left fun x _ => pow_two _
    rw [this]
    field_simp
    ring
  · rw [div_eq_zero_iff, or_iff_left hn.ne']
    constructor
    · intro h0 x hx
      have := List.single_le_sum hnn _ (List.mem_map.2 ⟨x, hx, rfl⟩)
      rw [h0] at this
      have h2 : (x - xs.sum / xs.length) ^ 2 = 0 := le_antisymm this (by positivity)
      have := pow_eq_zero_iff (two_ne_zero) |>.1 h2
      linarith
    · intro hall
      refine List.sum_eq_zero fun y hy => ?_
      obtain ⟨x, hx, rfl⟩ := List.mem_map.1 hy
      rw [show x - xs.sum / xs.length = 0 by linarith [hall x hx]]
      ring
  · unfold PopulationVariance
    rw [arithmeticMean_ok xs h]
    simp only
    have hiff := transformReduceAll_iff hop (z := 0) (fun a => add_zero a)
      (fun x => (x - xs.sum / xs.length) * (x - xs.sum / xs.length)) 1 xs 0
    constructor
    · rintro ⟨s, hs, rfl⟩
      rw [(hiff s).1 hs, leaves_one, foldl_add_sum, zero_add, hsq]
    · rintro rfl
      exact ⟨_, (hiff _).2 rfl, by rw [leaves_one, foldl_add_sum, zero_add, hsq]⟩

end Stats

/-- The standard deviation is the square root of the variance, for every order of the additions. -/
theorem C93_deviation (xs : List ℝ) (h : xs ≠ []) (r : Res ℝ) :
    ∃ v, (∀ q, PopulationVariance xs q ↔ q = .ok v) ∧
      (PopulationStandardDeviation xs r ↔ r = .ok (Real.sqrt v)) := by
  have hall := fun q => C93_variance xs h q
  obtain ⟨m, v, _, hv, hv', _, _, hr⟩ := C93_variance xs h r
  have hne : (xs.length : ℝ) ≠ 0 := by simpa using h
  have huniq : ∀ q, PopulationVariance xs q ↔ q = .ok v := by
    intro q
    obtain ⟨m', v', hm', hw, hw', _, _, hq⟩ := hall q
    have hmm : m' = m := mul_right_cancel₀ hne (hm'.trans (by assumption : m * (xs.length : ℝ) = xs.sum).symm)
    rw [hq, hw', hmm, ← hv']
  refine ⟨v, huniq, ?_⟩
  have : xs.length ≠ 0 := by simpa using h
  rw [PopulationStandardDeviation, if_neg this]
  constructor
  · rintro ⟨q, hq, rfl⟩
    rw [(huniq q).1 hq]
    rfl
  · rintro rfl
    exact ⟨.ok v, (huniq _).2 rfl, rfl⟩

example (r : Res ℝ) := C93_deviation [1, 2, 6] (by simp) r

/-- The root mean square of a container of any depth with at least one leaf: the only possible result is
the root of the mean of the squares of the leaves. -/
theorem C93_root_mean_square (n : Nat) (l : Nest ℝ n) (hne : leaves n l ≠ []) (hlt : (leaves n l).length < 2 ^ 64)
    (r : ℝ) :
    RootMeanSquare n l r ↔ r = Real.sqrt (((leaves n l).map fun x => x ^ 2).sum / (leaves n l).length) := by
  have hop : CommSemi (fun a b : ℝ => a + b) := ⟨fun a b c => add_assoc a b c, fun a b => add_comm a b⟩
  have hiff := transformReduceAll_iff hop (z := 0) (fun a => add_zero a) (fun x : ℝ => x * x) n l 0
  have hs := fun k => C70_size n l k hlt
  have he : (leaves n l).map (fun x : ℝ => x ^ 2) = (leaves n l).map fun x => x * x :=
    List.map_congr_left fun x _ => pow_two _
  rw [he]
  constructor
  · rintro ⟨s, k, h1, h2, _, rfl⟩
    rw [(hiff s).1 h1, (hs k).1 h2, foldl_add_sum, zero_add]
  · rintro rfl
    refine ⟨_, _, (hiff _).2 rfl, (hs _).2 rfl, by simpa using hne, ?_⟩
    rw [foldl_add_sum, zero_add]

example (r : ℝ) := C93_root_mean_square 2 [[3], [], [4, 5]] (by simp [leaves]) (by simp [leaves]) r

/-- The mean with an integer result type fails for negative sums: the division converts the sum to an
unsigned number. -/
theorem C93_integer_mean_violation : arithmeticMeanInt [-4, -2] = .ok (2 ^ 63 - 3) := by
  decide +kernel

/-- Concrete cases. -/
example : arithmeticMean [1, 2, (6 : ℚ)] = .ok 3 ∧ PopulationVariance [1, 2, (6 : ℚ)] (.ok (14 / 3)) := by
  refine ⟨by decide +kernel, ?_⟩
  obtain ⟨m, v, hm, hv, hv', _, _, hr⟩ := C93_variance [1, 2, (6 : ℚ)] (by simp) (.ok (14 / 3))
  rw [hr, hv']
  have : m = 3 := by norm_num at hm; linarith
  rw [this]
  norm_num

/-! ## C94 filtered copies -/

/-- Every depth, container and predicate: the copy has the same shape and a leaf is the new value where
the predicate holds and the old leaf elsewhere. -/
theorem C94_replace (p : α → Bool) (v : α) (n : Nat) (l : Nest α (n + 1)) :
    SameShape (n + 1) l (recReplaceCopyIf p v n l) ∧
    leaves (n + 1) (recReplaceCopyIf p v n l) = (leaves (n + 1) l).map fun a => if p a then v else a := by
  rw [replace_rows]
  exact ⟨sameShape_mapNest _ _ l, leaves_mapNest _ _ l⟩

/-- The copies without and with the matching leaves keep every outer container, filter each innermost
one, and split the leaves into two complementary parts. -/
theorem C94_filter (p : α → Bool) (n : Nat) (l : Nest α (n + 1)) :
    SameOuterShape n l (recRemoveCopyIf p n l) ∧ SameOuterShape n l (recCopyIf p n l) ∧
    rows n (recRemoveCopyIf p n l) = (rows n l).map (fun r => r.filter fun a => !p a) ∧
    rows n (recCopyIf p n l) = (rows n l).map (fun r => r.filter p) ∧
    leaves (n + 1) (recRemoveCopyIf p n l) = (leaves (n + 1) l).filter (fun a => !p a) ∧
    leaves (n + 1) (recCopyIf p n l) = (leaves (n + 1) l).filter p ∧
    (leaves (n + 1) (recCopyIf p n l) ++ leaves (n + 1) (recRemoveCopyIf p n l)).Perm (leaves (n + 1) l) := by
  have h1 := remove_rows p n l
  have h2 := copy_rows p n l
  have e1 : leaves (n + 1) (recRemoveCopyIf p n l) = (leaves (n + 1) l).filter (fun a => !p a) := by
    rw [← rows_flatten, h1.2, flatten_filter, rows_flatten]
  have e2 : leaves (n + 1) (recCopyIf p n l) = (leaves (n + 1) l).filter p := by
    rw [← rows_flatten, h2.2, flatten_filter, rows_flatten]
  refine ⟨h1.1, h2.1, h1.2, h2.2, e1, e2, ?_⟩
  rw [e1, e2]
  exact List.filter_append_perm p _

/-- `recursive_remove_copy` removes exactly the leaves equal to the value. -/
theorem C94_remove_value [DecidableEq α] (v : α) (n : Nat) (l : Nest α (n + 1)) :
    SameOuterShape n l (recRemoveCopy v n l) ∧
    leaves (n + 1) (recRemoveCopy v n l) = (leaves (n + 1) l).filter (fun a => decide (a ≠ v)) ∧
    v ∉ leaves (n + 1) (recRemoveCopy v n l) := by
  have h := remove_rows (fun a => a == v) n l
  have e : leaves (n + 1) (recRemoveCopy v n l) = (leaves (n + 1) l).filter (fun a => decide (a ≠ v)) := by
    rw [recRemoveCopy, ← rows_flatten, h.2, flatten_filter, rows_flatten]
    refine List.filter_congr fun a _ => ?_
    by_cases ha : a = v <;> simp [ha]
  refine ⟨h.1, e, ?_⟩
  rw [e]
  simp

/-- A concrete case. -/
example : recRemoveCopyIf (fun a : Nat => a % 2 == 0) 1 [[1, 2], [4], [5, 6, 7]] = [[1], [], [5, 7]] ∧
    recCopyIf (fun a : Nat => a % 2 == 0) 1 [[1, 2], [4], [5, 6, 7]] = [[2], [4], [6]] ∧
    recReplaceCopyIf (fun a : Nat => a % 2 == 0) 0 1 [[1, 2], [4], [5, 6, 7]] = [[1, 0], [0], [5, 0, 7]] :=
  ⟨rfl, rfl, rfl⟩

/-! ## C95 extrema -/

/-- Every depth, strict weak order and container without empty parts, no projection: `recursive_max`
returns a leaf that is below no leaf and `recursive_min` a leaf that is above no leaf. Missing: empty
parts and projections. -/
theorem C95_max_min_partial (comp : α → α → Bool) (h : WeakOrder comp) (n : Nat) (l : Nest α n)
    (hl : NoEmpty n l) :
    (∃ m, recMax comp id n l = .ok m ∧ m ∈ leaves n l ∧ ∀ x ∈ leaves n l, comp m x = false) ∧
    ∃ m, recMin comp id n l = .ok m ∧ m ∈ leaves n l ∧ ∀ x ∈ leaves n l, comp x m = false :=
  ⟨recMax_spec h n l hl, recMin_spec h n l hl⟩

example := C95_max_min_partial (fun a b : Int => decide (a < b))
  ⟨fun a b => by simp only [decide_eq_true_eq, decide_eq_false_iff_not]; omega,
    fun a b c => by simp only [decide_eq_false_iff_not]; omega⟩ 2 [[3, 9], [4]] (by simp [NoEmpty])

/-- An empty part at any level makes `recursive_max` throw, even when other parts have leaves. -/
theorem C95_empty (comp : α → α → Bool) (proj : α → α) (n : Nat) (l : Nest α n) (hl : ¬ NoEmpty n l) :
    recMax comp proj n l = .throw .outOfRange := recMax_empty comp proj n l hl

example : recMax (α := Int) (fun a b => a < b) id 2 [[3, 9], []] = .throw .outOfRange :=
  C95_empty _ id 2 _ (by simp [NoEmpty])

/-- The property fails with an empty part. -/
theorem C95_empty_violation :
    recMax (α := Int) (fun a b => a < b) id 2 [[7], []] = .throw .outOfRange ∧
    leaves (α := Int) 2 [[7], []] ≠ [] := by
  refine ⟨by decide +kernel, by simp [leaves]⟩

/-- The property fails with a projection: it is applied to values that are already projected, so the
result is not even a leaf, and with the negation as projection the value that belongs to the largest
projected leaf (the leaf 1, projected to -1) is not the one returned. -/
theorem C95_projection_violation :
    recMax (α := Int) (fun a b => a < b) (fun a => -a) 1 [1, 5] = .ok (-5) ∧
    ∀ x ∈ leaves (α := Int) 1 [1, 5], (fun a : Int => -a) x ≤ -1 := by
  refine ⟨by decide +kernel, by simp [leaves]⟩

/-- `recursive_minmax` with every projection: every container with at least one leaf gives a smallest
and a largest leaf; without leaves the behaviour is undefined. -/
theorem C95_minmax (comp : β → β → Bool) (h : WeakOrder comp) (proj : α → β) (n : Nat) (l : Nest α (n + 1)) :
    (leaves (n + 1) l ≠ [] → ∃ lo hi, recMinmax comp proj n l = .ok (lo, hi) ∧ lo ∈ leaves (n + 1) l ∧
      hi ∈ leaves (n + 1) l ∧ ∀ x ∈ leaves (n + 1) l,
        comp (proj x) (proj lo) = false ∧ comp (proj hi) (proj x) = false) ∧
    (leaves (n + 1) l = [] → recMinmax comp proj n l = .ub) := by
  rw [recMinmax, recFlatten_eq, List.nil_append]
  exact ⟨fun hl => stdMinmax_spec h proj _ hl, fun hl => by rw [hl]; rfl⟩

/-- The hypotheses are met. -/
example : WeakOrder (fun a b : Int => decide (a < b)) ∧ NoEmpty (α := Int) 2 [[3, 9], [4]] ∧
    recMax (α := Int) (fun a b => a < b) id 2 [[3, 9], [4]] = .ok 9 ∧
    recMinmax (α := Int) (fun a b : Int => a < b) (fun a => -a) 1 [[3, 9], [], [4]] = .ok (9, 3) := by
  refine ⟨⟨fun a b => ?_, fun a b c => ?_⟩, by simp [NoEmpty], by decide +kernel, by decide +kernel⟩
  · simp only [decide_eq_true_eq, decide_eq_false_iff_not]; omega
  · simp only [decide_eq_false_iff_not]; omega

/-! ## C96 operations on two containers -/

/-- Two containers of the same shape: the result has this shape and its leaves are the results on the pairs of leaves.
Missing: containers of different shapes, see `C96_transform_violation`. -/
theorem C96_transform_partial {γ : Type} (f : α → β → γ) (n : Nat) (a : Nest α n) (b : Nest β n)
    (h : SameShape n a b) :
    ∃ out, recTransform2 f n a b = .ok out ∧ SameShape n a out ∧ (leaves n a).length = (leaves n b).length ∧
      leaves n out = List.zipWith f (leaves n a) (leaves n b) :=
  ⟨_, recTransform2_ok f n a b h, zipNest_spec f n a b h⟩

example := C96_transform_partial (fun a b : Int => a + b) 2 [[1, 2], [3]] [[10, 20], [30]]
  (.cons (.cons trivial (.cons trivial .nil)) (.cons (.cons trivial .nil) .nil))

/-- Without the same shape: a longer second list is cut off silently and a shorter one is read past its
end. -/
theorem C96_transform_violation {γ : Type} (f : α → β → γ) (a : List α) (b : List β) :
    (a.length ≤ b.length → recTransform2 f 1 a b = .ok (List.zipWith f a b)) ∧
    (b.length < a.length → recTransform2 f 1 a b = .ub) :=
  ⟨fun h => transform2_ok (g := f) a b h fun _ _ => rfl,
    fun h => transform2_ub (g := f) (fun _ _ => rfl) a b h⟩

/-- `two_input_map_reduce`: lists of different sizes throw `std::runtime_error` in both branches; lists
of the same size give the left fold over the pairs, and in the branch with `std::reduce` the same
value for every order when the operation is associative and commutative. -/
theorem C96_map_reduce (op1 : α → β → T) (op2 : T → T → T) (init : T) (xs : List α) (ys : List β) :
    (xs.length ≠ ys.length → twoInputMapReduce op1 op2 init xs ys = .throw .runtime ∧
      ∀ r, TwoInputMapReduceZip op1 op2 init xs ys r ↔ r = .throw .runtime) ∧
    (xs.length = ys.length →
      twoInputMapReduce op1 op2 init xs ys = .ok ((List.zipWith op1 xs ys).foldl op2 init) ∧
      (CommSemi op2 → ∀ r, TwoInputMapReduceZip op1 op2 init xs ys r ↔
        r = twoInputMapReduce op1 op2 init xs ys)) := by
  refine ⟨fun h => ⟨if_pos h, fun r => by rw [TwoInputMapReduceZip, if_pos h]⟩, fun h => ?_⟩
  have hseq : twoInputMapReduce op1 op2 init xs ys = .ok ((List.zipWith op1 xs ys).foldl op2 init) := by
    rw [twoInputMapReduce, if_neg (by simpa using h)]
    obtain ⟨s, e, hs⟩ := forUp_inv (n := xs.length) (body := fun out i => do
        let a ← vget xs i
        let b ← vget ys i
        Res.ok (op2 out (op1 a b))) (fun k s => s = ((List.zipWith op1 xs ys).take k).foldl op2 init)
      (fun k s hk hs => by
        have hk' : k < ys.length := by omega
        refine ⟨op2 s (op1 xs[k] ys[k]), by simp [vget, List.getElem?_eq_getElem hk, List.getElem?_eq_getElem hk'], ?_⟩
        have hz : k < (List.zipWith op1 xs ys).length := by simp; omega
        rw [List.take_succ_eq_append_getElem hz, List.foldl_append, ← hs]
        simp) init (by simp)
    rw [e, hs, List.take_of_length_le (by simp)]
  refine ⟨hseq, fun hop r => ?_⟩
  rw [TwoInputMapReduceZip, if_neg (by simpa using h), hseq]
  constructor
  · rintro ⟨v, rfl, hg⟩
    rw [hg.eq hop _ _ (List.Perm.refl _)]
  · rintro rfl
    exact ⟨_, rfl, GSum.of_foldl op2 init _⟩

/-- A concrete case. -/
example : SameShape (α := Int) (β := Int) 2 [[1, 2], [3]] [[10, 20], [30]] ∧
    recTransform2 (fun a b : Int => a + b) 2 [[1, 2], [3]] [[10, 20], [30]] = .ok [[11, 22], [33]] ∧
    twoInputMapReduce (fun a b : Int => a - b) (fun a b : Int => a + b) 0 [5, 7] [1, 2] = .ok 9 := by
  refine ⟨?_, by decide +kernel, by decide +kernel⟩
  exact .cons (.cons trivial (.cons trivial .nil)) (.cons (.cons trivial .nil) .nil)

/-! ## C97 visiting the leaves -/

/-- `recursive_for_each` with a function object without state of its own calls it once for every leaf, in order.
Missing: the state of the function object, see `C97_for_each_violation`. -/
theorem C97_for_each_partial {ε : Type} (call : ε → α → ε) (n : Nat) (l : Nest α (n + 1)) (e : ε) :
    (recForEach (σ := Unit) (fun _ e a => ((), call e a)) n l () e).2 = (leaves (n + 1) l).foldl call e := by
  rw [recForEach_snd, ← rows_flatten, List.foldl_flatten]
  congr 1
  funext e row
  induction row generalizing e with
  | nil => rfl
  | cons a row ih => exact ih (call e a)

/-- With an execution policy every leaf is visited exactly once. -/
theorem C97_for_each_policy (n : Nat) (l : Nest α (n + 1)) (calls : List α) (h : ParForEach n l calls) :
    calls.Perm (leaves (n + 1) l) := parForEach_perm n l calls h

/-- The property fails for a function object with state: unlike `std::for_each`, the call returns the
object it was given, so nothing accumulated in it can be read. -/
theorem C97_for_each_violation {σ ε : Type} (call : σ → ε → α → σ × ε) (n : Nat) (l : Nest α (n + 1)) (s : σ)
    (e : ε) :
    (recForEach call n l s e).1 = s ∧
    (recForEach (σ := Nat) (fun s e a => (s + a, e)) 1 [[1, 2], [3]] 0 ()).1 = 0 ∧
    ([1, 2, 3].foldl (fun s a => s + a) 0 : Nat) = 6 :=
  ⟨recForEach_fst call n l s e, rfl, rfl⟩

/-- `recursive_fold_right_all` is the right fold over the leaves. -/
theorem C97_fold_right (f : α → β → β) (n : Nat) (l : Nest α n) (init : β) :
    foldRightAll f n l init = (leaves n l).foldr f init := by
  rw [foldRightAll, reverseForeachAll_eq]

/-- A concrete case; the calls of a policy in an order that mixes the rows. -/
example : foldRightAll (fun (a : Nat) (s : List Nat) => a :: s) 2 [[1, 2], [3]] [] = [1, 2, 3] ∧
    ParForEach (α := Nat) 1 [[1, 2], [3]] [2, 3, 1] := by
  refine ⟨rfl, [[1, 2], [3]], .cons (List.Perm.refl _) (.cons (List.Perm.refl _) .nil), ?_⟩
  decide

/-! ## C98 generated containers -/

/-- Every value, size and dimension: each level has `times` elements and all `times ^ dim` leaves are the
value. -/
theorem C98_generator (x : α) (times n : Nat) :
    Uniform times n (nDimGenerator x times n) ∧
    leaves n (nDimGenerator x times n) = List.replicate (times ^ n) x := nDim_spec x times n

example : nDimGenerator 7 3 2 = [[7, 7, 7], [7, 7, 7], [7, 7, 7]] := rfl

example : recSizeLevel (α := Nat) 1 [[1, 2], [3, 4]] = .ok 2 :=
  C70_size_level_partial 2 (by decide) 1 ([[1, 2], [3, 4]] : List (List Nat)) (by simp [Uniform])

end TinyDIP.Props
