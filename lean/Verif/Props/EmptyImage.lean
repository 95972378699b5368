import Verif.Model.EmptyImage
import Verif.Lemmas.Image
import Verif.Lemmas.Samples
import Mathlib.Algebra.BigOperators.Group.List.Basic

/-!
# Property theorems: the number of pixels and the empty picture (C206)

Full statement of C206: `count()` and `count(policy)` give the number of stored pixels; every checked access to a
picture without pixels, such as `Image<T>{}` or what a failed stitching returns, is reported as an error.

What is missing: `count()` of the picture without a size is 1, so `set(0)` passes its check and refers to an element
that does not exist; and `at` with a range of indices reads sizes that do not exist.
-/

namespace TinyDIP.Props

open TinyDIP Image

variable {α : Type}

/-! ## C206 -/

theorem wmul_mod_left (a b : Nat) : (a % W * b) % W = (a * b) % W := Nat.mod_mul_mod a b W

theorem brackets_wmul {l : List Nat} {v : Nat} (h : Brackets wmul l v) (hl : ∀ a ∈ l, a < 2 ^ 64) : v = l.prod % W := by
  induction h with
  | one a => simpa using (Nat.mod_eq_of_lt (show a < W from hl a (by simp))).symm
  | node _ _ ih1 ih2 =>
    rw [ih1 (fun a ha => hl a (by simp [ha])), ih2 (fun a ha => hl a (by simp [ha])), List.prod_append]
    exact (Nat.mul_mod _ _ _).symm

/-- A picture with at least one dimension whose pixels are as many as its sizes say: `count()` and, in every order and
grouping of its product, `count(policy)` give the number of pixels.
Missing: the picture without a size. -/
theorem C206_count_partial (im : Image α) (h0 : im.size ≠ []) (hs : ∀ n ∈ im.size, n < 2 ^ 64)
    (hp : im.size.prod < 2 ^ 64) (hd : im.data.length = im.size.prod) :
    im.count = im.data.length ∧ (∀ v, CountPolicy im v ↔ v = im.data.length) := by
  have hc : im.size.prod % W = im.data.length := by rw [hd]; exact Nat.mod_eq_of_lt hp
  have key : ∀ v, CountPolicy im v → v = im.data.length := by
    intro v hv
    unfold CountPolicy at hv
    rw [if_neg (by simpa using h0)] at hv
    obtain ⟨l, hl, hb⟩ := hv
    have := brackets_wmul hb (fun a ha => by
      have := hl.mem_iff.1 ha
      rcases List.mem_cons.1 this with rfl | h
      · decide
      · exact hs a h)
    rw [this, hl.prod_eq, List.prod_cons, one_mul, hc]
  refine ⟨by rw [Image.count, prodW_eq, hc], fun v => ⟨key v, ?_⟩⟩
  rintro rfl
  have ex : ∀ (l : List Nat) (a : Nat), ∃ v, Brackets wmul (a :: l) v := by
    intro l
    induction l with
    | nil => exact fun a => ⟨a, .one a⟩
    | cons b l ih =>
      intro a
      obtain ⟨v, hv⟩ := ih b
      exact ⟨_, .node (.one a) hv⟩
  obtain ⟨v, hv⟩ := ex im.size 1
  have hcp : CountPolicy im v := by
    unfold CountPolicy
    rw [if_neg (by simpa using h0)]
    exact ⟨_, .refl _, hv⟩
  rw [← key v hcp]
  exact hcp

example := C206_count_partial (picture 7 6 fun x y => x + y) (by decide) (by decide) (by decide) (by decide)

/-- The picture without a size: every access with coordinates (one or more), every access with a location and every
`set` of a pixel other than pixel 0 is reported as an error; conversion is an error; `+=` and its like accept only
another such picture and leave it as it is.
Missing: see the violation. -/
theorem C206_empty_partial (i : Nat) (rest : List Nat) (v : α) :
    (Image.default : Image α).at' (i :: rest) = .throw .runtime ∧
    (Image.default : Image α).setAt (i :: rest) v = .throw .runtime ∧
    (Image.default : Image α).setTuple (i :: rest) v = .throw .runtime ∧
    (∀ k, 1 ≤ k → (Image.default : Image α).setIndex k v = .throw .outOfRange) ∧
    (∀ f : α → α, (Image.default : Image α).cast f = .throw .runtime) ∧
    (∀ f : α → α → α, opAssign f (Image.default : Image α) Image.default = .ok Image.default) ∧
    (∀ (f : α → α → α) (im : Image α), im.size ≠ [] →
      opAssign f im Image.default = .throw .runtime ∧ opAssign f Image.default im = .throw .runtime) := by
  refine ⟨rfl, rfl, rfl, ?_, fun _ => rfl, fun _ => rfl, ?_⟩
  · intro k hk
    exact if_pos hk
  · intro f im h
    constructor
    · unfold opAssign checkSizeSame
      rw [if_pos (by simpa [Image.default] using Ne.symm h)]
    · unfold opAssign checkSizeSame
      rw [if_pos (by simpa [Image.default] using h)]

example := C206_empty_partial 3 [4] (7 : Nat)

/-- Violation: the picture without a size stores no pixel, yet `count()` is 1 while `count(policy)` is 0; `set(0)` is
not rejected and refers to an element that does not exist; nor is `at` with any range of indices that is not empty
rejected. -/
theorem C206_empty_violation (v : α) :
    (Image.default : Image α).data = [] ∧ (Image.default : Image α).count = 1 ∧
    (∀ n, CountPolicy (Image.default : Image α) n ↔ n = 0) ∧
    (Image.default : Image α).setIndex 0 v = .ub ∧
    ∀ i rest, (Image.default : Image α).atRange (i :: rest) = .ub :=
  ⟨rfl, rfl, fun _ => Iff.rfl, rfl, fun _ _ => rfl⟩

end TinyDIP.Props
