import Verif.Lemmas.Rounding

/-!
# Numbers of a floating type as elements

Many models are written for any element type with an addition and a multiplication (`conv2`, `multiply`, `sum`,
`mean`, `squared_euclidean_distance`). Here is the element type for which they are the program on `float` or
`double` elements: numbers with `p` significant bits, whose every operation rounds (see `Rounding` for what is left
out: overflow, underflow, special values, fused operations).
-/

namespace TinyDIP.Rnd

/-- The numbers of a floating type with `p` significant bits (`float`: 24, `double`: 53): the element type of the
images and matrices of image.h 50 and linear_algebra.h 20. -/
structure Flt (p : Nat) where
  val : ℝ
  rep : Rep p val

variable {p : Nat}

/-- `ElementT{}`: the start value of the sums of image_operations.h 584, 4294, 4304 and linear_algebra.h 115. -/
instance : Zero (Flt p) := ⟨⟨0, 0, 0, by simp, by simp⟩⟩

/-- The operator `+` of the type: the exact sum, rounded. image_operations.h 607, linear_algebra.h 118. -/
noncomputable instance : Add (Flt p) := ⟨fun a b => ⟨fl p (a.val + b.val), fl_rep _⟩⟩

/-- The operator `-` of the type. image_operations.h 4035. -/
noncomputable instance : Sub (Flt p) := ⟨fun a b => ⟨fl p (a.val - b.val), fl_rep _⟩⟩

/-- The operator `*` of the type. image_operations.h 607, linear_algebra.h 118. -/
noncomputable instance : Mul (Flt p) := ⟨fun a b => ⟨fl p (a.val * b.val), fl_rep _⟩⟩

/-- `sum / count`: the `std::size_t` is converted to the floating type, then the quotient is rounded.
image_operations.h 4312, 4321. -/
noncomputable def Flt.divCount (a : Flt p) (n : Nat) : Flt p := ⟨fl p (a.val / fl p n), fl_rep _⟩

end TinyDIP.Rnd
