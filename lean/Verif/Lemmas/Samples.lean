import Verif.Lemmas.Image
/-!
Concrete pictures for the examples beside the theorems: `picture w h f` is the `w × h` image whose pixel
at `(x, y)` is `f x y`. Nothing here models code of the repository.
-/
namespace TinyDIP

/-- The `w × h` picture with the pixel `f x y` at `(x, y)`, stored row by row. -/
def picture {α : Type} (w h : Nat) (f : Nat → Nat → α) : Image α :=
  ⟨[w, h], (List.range (w * h)).map fun i => f (i % w) (i / w)⟩

theorem picture_shows {α : Type} (w h : Nat) (f : Nat → Nat → α) (hw : w < 2 ^ 64 := by decide)
    (hh : h < 2 ^ 64 := by decide) (hf : w * h < 2 ^ 64 := by decide) : (picture w h f).Shows w h f := by
  refine Image.Shows.of_data hw hh hf rfl (by simp [picture]) ?_
  intro x y hx hy
  have hi : x + w * y < w * h := by
    have h1 : w * (y + 1) ≤ w * h := Nat.mul_le_mul_left _ hy
    rw [Nat.mul_add, Nat.mul_one] at h1
    omega
  show ((List.range (w * h)).map fun i => f (i % w) (i / w))[x + w * y]? = _
  rw [List.getElem?_map, List.getElem?_range hi, Option.map_some, Nat.add_mul_mod_self_left,
    Nat.mod_eq_of_lt hx, Nat.add_mul_div_left _ _ (by omega), Nat.div_eq_of_lt hx, Nat.zero_add]

theorem picture_wf {α : Type} (w h : Nat) (f : Nat → Nat → α) (hw : w < 2 ^ 64 := by decide)
    (hh : h < 2 ^ 64 := by decide) (hf : w * h < 2 ^ 64 := by decide) : (picture w h f).WF :=
  (picture_shows w h f hw hh hf).wf

/-- Every value read from a picture is one of its pixels. -/
theorem picture_at {α : Type} {w h : Nat} {f : Nat → Nat → α} {idx : List Nat} {v : α}
    (e : (picture w h f).at' idx = .ok v) (hw : w < 2 ^ 64 := by decide)
    (hh : h < 2 ^ 64 := by decide) (hf : w * h < 2 ^ 64 := by decide) :
    ∃ x y, x < w ∧ y < h ∧ idx = [x, y] ∧ v = f x y := by
  have hb : InBounds [w, h] idx := inBounds_of_at'_ok e
  match idx, hb with
  | [x, y], hb =>
    rw [inBounds2] at hb
    refine ⟨x, y, hb.1, hb.2, rfl, ?_⟩
    have := (picture_shows w h f hw hh hf).px x y hb.1 hb.2
    rw [Image.at2, e] at this
    injection this

end TinyDIP

namespace TinyDIP.Props

/-- A concrete well-formed 2 × 3 × 2 image. -/
def sample : Image Nat := ⟨[2, 3, 2], List.range 12⟩

theorem sample_wf : sample.WF := ⟨by decide, by decide, by decide⟩

/-- A concrete 3 × 2 image. -/
def sample2 : Image Nat := ⟨[3, 2], [10, 11, 12, 13, 14, 15]⟩

theorem sample2_shows : sample2.Shows 3 2 (fun x y => 10 + x + 3 * y) := by
  refine ⟨⟨by decide, by decide, by decide⟩, rfl, ?_⟩
  intro x y hx hy
  have hx' : x = 0 ∨ x = 1 ∨ x = 2 := by omega
  have hy' : y = 0 ∨ y = 1 := by omega
  rcases hx' with rfl | rfl | rfl <;> rcases hy' with rfl | rfl <;> decide

end TinyDIP.Props
