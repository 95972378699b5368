import Verif.Model.IntElem
import Verif.Lemmas.Pixelwise
import Verif.Lemmas.Conv
import Mathlib.Data.BitVec
import Mathlib.Algebra.BigOperators.Group.List.Basic
import Mathlib.Algebra.BigOperators.Ring.Finset
import Mathlib.Algebra.Order.BigOperators.Group.List
import Mathlib.Data.Int.Cast.Lemmas
import Mathlib.Data.List.Perm.Basic
import Mathlib.Tactic.Ring
import Mathlib.Tactic.Linarith

namespace TinyDIP.IntEl

variable {n : Nat}

theorem foldl_toNat (l : List (BitVec n)) (a : BitVec n) :
    (l.foldl (· + ·) a).toNat = (a.toNat + (l.map BitVec.toNat).sum) % 2 ^ n := by
  induction l generalizing a with
  | nil => simp [Nat.mod_eq_of_lt a.isLt]
  | cons b l ih =>
    rw [List.foldl_cons, ih, BitVec.toNat_add, List.map_cons, List.sum_cons, Nat.mod_add_mod, Nat.add_assoc]

theorem cast_toNat (z : ℤ) : (((z : BitVec n)).toNat : ℤ) = z % 2 ^ n := by
  have h : (z : BitVec n) = BitVec.ofInt n z := rfl
  rw [h, BitVec.toNat_ofInt]
  push_cast
  rw [Int.toNat_of_nonneg (Int.emod_nonneg _ (by positivity))]

theorem of_toNat (x : BitVec n) : (((x.toNat : ℤ)) : BitVec n) = x := by
  apply BitVec.eq_of_toNat_eq
  have := cast_toNat (n := n) (x.toNat : ℤ)
  rw [Int.emod_eq_of_lt (by positivity) (by exact_mod_cast x.isLt)] at this
  exact_mod_cast this

/-- The convolution of elements of `n` bits is the exact convolution modulo `2 ^ n`. -/
theorem convAt_toNat (w1 h1 : Nat) (fx : Nat → Nat → BitVec n) (w2 h2 : Nat) (fy : Nat → Nat → BitVec n) (i j : Nat) :
    ((convAt w1 h1 fx w2 h2 fy i j).toNat : ℤ) =
      convAt w1 h1 (fun x y => ((fx x y).toNat : ℤ)) w2 h2 (fun x y => ((fy x y).toNat : ℤ)) i j % 2 ^ n := by
  rw [← cast_toNat]
  congr 2
  simp only [convAt, Int.cast_sum, Int.cast_mul, of_toNat]
  apply Finset.sum_congr rfl; intro l _
  apply Finset.sum_congr rfl; intro k _
  congr 1
  unfold zeroExt
  split
  · rw [of_toNat]
  · simp

theorem isInt_of_abs {x : ℤ} (h : |x| < 2 ^ 31) : isInt x = true := by
  have := abs_lt.1 h
  simp only [isInt, Bool.and_eq_true, decide_eq_true_eq]
  omega

/-- Whatever the grouping, no addition overflows when the sum of the absolute values is an `int`. -/
theorem brackets_int {l : List (Res Int)} {r : Res Int} (h : Brackets plusInt l r) :
    ∀ xs : List Int, l = xs.map .ok → (xs.map abs).sum < 2 ^ 31 → r = .ok xs.sum ∧ |xs.sum| ≤ (xs.map abs).sum := by
  induction h with
  | one a =>
    intro xs hx hb
    obtain ⟨x, rfl⟩ : ∃ x, xs = [x] := by
      cases xs with
      | nil => simp at hx
      | cons x t => cases t with
        | nil => exact ⟨x, rfl⟩
        | cons _ _ => simp at hx
    simp at hx
    simp [hx]
  | node _ _ ih1 ih2 =>
    intro xs hx hb
    obtain ⟨xs1, xs2, rfl, h1, h2⟩ := List.append_eq_map_iff.1 hx
    rw [List.map_append, List.sum_append] at hb
    have n1 : 0 ≤ (xs1.map abs).sum := List.sum_nonneg (by simp)
    have n2 : 0 ≤ (xs2.map abs).sum := List.sum_nonneg (by simp)
    obtain ⟨r1, b1⟩ := ih1 xs1 h1.symm (by omega)
    obtain ⟨r2, b2⟩ := ih2 xs2 h2.symm (by omega)
    have hb' : |xs1.sum + xs2.sum| ≤ (xs1.map abs).sum + (xs2.map abs).sum :=
      (abs_add_le _ _).trans (add_le_add b1 b2)
    rw [List.sum_append, List.map_append, List.sum_append]
    refine ⟨?_, hb'⟩
    rw [r1, r2]
    show (if isInt (xs1.sum + xs2.sum) then Res.ok (xs1.sum + xs2.sum) else .ub) = _
    rw [if_pos (isInt_of_abs (by omega))]

theorem abs_list_sum (l : List Int) : |l.sum| ≤ (l.map abs).sum := by
  induction l with
  | nil => simp
  | cons a l ih => simpa using (abs_add_le _ _).trans (add_le_add (le_refl |a|) ih)

theorem sumInt_eq {im : Image Int} {r : Res Int} (h : SumInt im r) (hb : (im.data.map abs).sum < 2 ^ 31) :
    r = .ok im.data.sum := by
  obtain ⟨l, hl, hv⟩ := h
  obtain ⟨xs, hx, hp⟩ : ∃ xs : List Int, l = xs.map .ok ∧ xs.Perm (0 :: im.data) := by
    have e : Res.ok (0 : Int) :: im.data.map .ok = (0 :: im.data).map Res.ok := rfl
    rw [e] at hl
    have hx : l = (l.map fun r => match r with | .ok x => x | _ => 0).map Res.ok := by
      rw [List.map_map]
      conv_lhs => rw [← List.map_id l]
      apply List.map_congr_left
      intro r hr
      obtain ⟨x, _, rfl⟩ := List.mem_map.1 (hl.mem_iff.1 hr)
      rfl
    refine ⟨_, hx, ?_⟩
    rw [hx] at hl
    exact (List.map_perm_map_iff (fun a b h => Res.ok.inj h)).1 hl
  have := (brackets_int hv xs hx (by rw [(hp.map _).sum_eq]; simpa using hb)).1
  rw [this, hp.sum_eq]; simp

end TinyDIP.IntEl
