import Mathlib.Analysis.SpecialFunctions.Trigonometric.Basic
import Mathlib.Analysis.SpecialFunctions.Complex.Log
import Mathlib.Algebra.Field.GeomSum
import Mathlib.LinearAlgebra.Matrix.NonsingularInverse
import Mathlib.Analysis.SpecialFunctions.Pow.Real
import Mathlib.Algebra.BigOperators.Fin

/-! # Orthogonality of the Fourier and cosine bases -/

namespace TinyDIP

open Finset

/-! ### Generic inversion -/

theorem invert_of_ortho {ι R : Type} [DecidableEq ι] [CommRing R] (S : Finset ι) (B M : ι → ι → R)
    (h : ∀ x ∈ S, ∀ x' ∈ S, (∑ k ∈ S, B x k * M k x') = if x = x' then 1 else 0)
    (f : ι → R) {x : ι} (hx : x ∈ S) : (∑ k ∈ S, B x k * ∑ x' ∈ S, M k x' * f x') = f x := by
  have e : ∀ k ∈ S, B x k * ∑ x' ∈ S, M k x' * f x' = ∑ x' ∈ S, B x k * M k x' * f x' := by
    intro k _
    rw [mul_sum]
    exact sum_congr rfl fun _ _ => by ring
  rw [sum_congr rfl e, sum_comm, sum_eq_single x]
  · rw [← sum_mul, h x hx x hx, if_pos rfl, one_mul]
  · intro x' hx' hne
    rw [← sum_mul, h x hx x' hx', if_neg (Ne.symm hne), zero_mul]
  · intro hn; exact absurd hx hn

/-- Orthogonality of products. -/
theorem ortho_prod {ι κ R : Type} [DecidableEq ι] [DecidableEq κ] [CommRing R] {S : Finset ι}
    {T : Finset κ} {B M : ι → ι → R} {B' M' : κ → κ → R}
    (h : ∀ x ∈ S, ∀ x' ∈ S, (∑ k ∈ S, B x k * M k x') = if x = x' then 1 else 0)
    (h' : ∀ x ∈ T, ∀ x' ∈ T, (∑ k ∈ T, B' x k * M' k x') = if x = x' then 1 else 0) :
    ∀ x ∈ S ×ˢ T, ∀ x' ∈ S ×ˢ T, (∑ k ∈ S ×ˢ T, (B x.1 k.1 * B' x.2 k.2) * (M k.1 x'.1 * M' k.2 x'.2))
      = if x = x' then 1 else 0 := by
  rintro ⟨x, y⟩ hx ⟨x', y'⟩ hx'
  rw [mem_product] at hx hx'
  have : ∑ k ∈ S ×ˢ T, (B x k.1 * B' y k.2) * (M k.1 x' * M' k.2 y') =
      (∑ k ∈ S, B x k * M k x') * ∑ k ∈ T, B' y k * M' k y' := by
    rw [sum_product, sum_mul_sum]
    exact sum_congr rfl fun a _ => sum_congr rfl fun b _ => by ring
  rw [this, h x hx.1 x' hx'.1, h' y hx.2 y' hx'.2]
  by_cases h1 : x = x' <;> by_cases h2 : y = y' <;> simp [h1, h2]

/-- A one-sided orthogonality relation on a finite index set is two-sided. -/
theorem ortho_swap {R : Type} [CommRing R] (N : Nat) (B M : Nat → Nat → R)
    (h : ∀ x ∈ range N, ∀ x' ∈ range N, (∑ k ∈ range N, B x k * M k x') = if x = x' then 1 else 0) :
    ∀ k ∈ range N, ∀ k' ∈ range N, (∑ x ∈ range N, M k x * B x k') = if k = k' then 1 else 0 := by
  let A : Matrix (Fin N) (Fin N) R := fun i j => B i j
  let C : Matrix (Fin N) (Fin N) R := fun i j => M i j
  have h1 : A * C = 1 := by
    ext i j
    rw [Matrix.mul_apply, Matrix.one_apply]
    have := h i (mem_range.mpr i.2) j (mem_range.mpr j.2)
    rw [sum_range] at this
    rw [this]
    simp [Fin.ext_iff]
  have h2 : C * A = 1 := mul_eq_one_comm.mp h1
  intro k hk k' hk'
  have := congrFun (congrFun h2 ⟨k, mem_range.mp hk⟩) ⟨k', mem_range.mp hk'⟩
  rw [Matrix.mul_apply, Matrix.one_apply] at this
  rw [sum_range, this]
  simp [Fin.ext_iff]

/-! ### The Fourier basis -/

theorem fourier_ortho {N : Nat} (hN : 0 < N) (x x' : Nat) (hx : x < N) (hx' : x' < N) :
    (∑ k ∈ range N, Complex.exp (2 * Real.pi * Complex.I * ((x * k : ℝ) / N)) *
      Complex.exp (-(2 * Real.pi * Complex.I * ((x' * k : ℝ) / N)))) = if x = x' then (N : ℂ) else 0 := by
  have hN' : (N : ℂ) ≠ 0 := by exact_mod_cast hN.ne'
  set ζ : ℂ := Complex.exp (2 * Real.pi * Complex.I * (((x : ℂ) - x') / N)) with hζ
  have e : ∀ k ∈ range N, Complex.exp (2 * Real.pi * Complex.I * ((x * k : ℝ) / N)) *
      Complex.exp (-(2 * Real.pi * Complex.I * ((x' * k : ℝ) / N))) = ζ ^ k := by
    intro k _
    rw [← Complex.exp_add, hζ, ← Complex.exp_nat_mul]
    congr 1
    push_cast
    field_simp
    ring
  rw [sum_congr rfl e]
  by_cases hxx : x = x'
  · subst hxx
    simp [hζ]
  · rw [if_neg hxx]
    have h1 : ζ ^ N = 1 := by
      rw [hζ, ← Complex.exp_nat_mul]
      have : (N : ℂ) * (2 * Real.pi * Complex.I * (((x : ℂ) - x') / N)) =
          ((x : ℤ) - (x' : ℤ) : ℤ) * (2 * Real.pi * Complex.I) := by
        push_cast; field_simp
      rw [this]
      exact Complex.exp_int_mul_two_pi_mul_I _
    have h2 : ζ ≠ 1 := by
      rw [hζ, Ne, Complex.exp_eq_one_iff]
      rintro ⟨n, hn⟩
      have hpi : (2 * Real.pi * Complex.I : ℂ) ≠ 0 := Complex.two_pi_I_ne_zero
      have h3 : ((x : ℂ) - x') / N = n := by
        have h4 : (2 * Real.pi * Complex.I) * (((x : ℂ) - x') / N) = (2 * Real.pi * Complex.I) * n := by
          rw [hn]; ring
        exact mul_left_cancel₀ hpi h4
      rw [div_eq_iff hN'] at h3
      have h5 : (x : ℤ) - x' = n * N := by exact_mod_cast h3
      have h6 : |(x : ℤ) - x'| < N := by rw [abs_lt]; omega
      rw [h5, abs_mul] at h6
      have h7 : n ≠ 0 := by
        rintro rfl
        apply hxx; omega
      have h8 : 1 ≤ |n| := Int.one_le_abs h7
      have h9 : |(N : ℤ)| = N := abs_of_nonneg (by omega)
      rw [h9] at h6
      nlinarith
    rw [geom_sum_eq h2, h1, sub_self, zero_div]

/-! ### The cosine basis -/

theorem dirichlet (t : ℝ) (n : Nat) :
    2 * Real.sin t * (∑ k ∈ range (n + 1), (if k = 0 then (1 : ℝ) / 2 else 1) * Real.cos (2 * k * t)) =
      Real.sin ((2 * n + 1) * t) := by
  induction n with
  | zero => simp; ring
  | succ n ih =>
    rw [sum_range_succ, mul_add, ih, if_neg (by omega)]
    have e1 : (2 * (n : ℝ) + 1) * t = 2 * ((n : ℝ) + 1) * t - t := by ring
    have e2 : (2 * ((n : ℝ) + 1) + 1) * t = 2 * ((n : ℝ) + 1) * t + t := by ring
    push_cast
    rw [e1, e2, Real.sin_sub, Real.sin_add]
    ring

theorem dirichlet_val {N j : Nat} (hj0 : 0 < j) (hj : j < 2 * N) :
    (∑ k ∈ range N, (if k = 0 then (1 : ℝ) / 2 else 1) * Real.cos (2 * k * (j * Real.pi / (2 * N)))) =
      -(-1) ^ j / 2 := by
  obtain ⟨n, rfl⟩ : ∃ n, N = n + 1 := ⟨N - 1, by omega⟩
  have hN : (0 : ℝ) < ((n + 1 : ℕ) : ℝ) := by positivity
  set t : ℝ := j * Real.pi / (2 * ((n + 1 : ℕ) : ℝ)) with ht
  have hs : 0 < Real.sin t := by
    apply Real.sin_pos_of_pos_of_lt_pi
    · have : (0 : ℝ) < j := by exact_mod_cast hj0
      have := Real.pi_pos
      positivity
    · rw [ht, div_lt_iff₀ (by positivity)]
      have : (j : ℝ) < 2 * ((n + 1 : ℕ) : ℝ) := by exact_mod_cast hj
      have := Real.pi_pos
      nlinarith
  have hd := dirichlet t n
  have e : (2 * (n : ℝ) + 1) * t = j * Real.pi - t := by
    rw [ht]; push_cast; field_simp; ring
  rw [e, Real.sin_sub, Real.sin_nat_mul_pi, Real.cos_nat_mul_pi] at hd
  have hs' : (2 * Real.sin t) ≠ 0 := by positivity
  apply mul_left_cancel₀ hs'
  rw [hd]
  ring

theorem cosine_ortho {N : Nat} (x x' : Nat) (hx : x < N) (hx' : x' < N) :
    (∑ k ∈ range N, (if k = 0 then (1 : ℝ) / 2 else 1) * (2 *
      Real.cos (Real.pi / (2 * N) * (2 * x + 1) * k) * Real.cos (Real.pi / (2 * N) * (2 * x' + 1) * k))) =
      if x = x' then (N : ℝ) else 0 := by
  wlog hle : x' ≤ x generalizing x x' with H
  · have := H x' x hx' hx (by omega)
    rw [if_neg (by omega)] at this
    rw [if_neg (by omega), ← this]
    exact sum_congr rfl fun k _ => by ring
  have hN : (N : ℝ) ≠ 0 := by exact_mod_cast (by omega : N ≠ 0)
  have e : ∀ k ∈ range N, (if k = 0 then (1 : ℝ) / 2 else 1) * (2 *
      Real.cos (Real.pi / (2 * N) * (2 * x + 1) * k) * Real.cos (Real.pi / (2 * N) * (2 * x' + 1) * k)) =
      (if k = 0 then (1 : ℝ) / 2 else 1) * Real.cos (2 * k * ((x + x' + 1 : ℕ) * Real.pi / (2 * N))) +
      (if k = 0 then (1 : ℝ) / 2 else 1) * Real.cos (2 * k * ((x - x' : ℕ) * Real.pi / (2 * N))) := by
    intro k _
    rw [Real.two_mul_cos_mul_cos, ← mul_add, add_comm (Real.cos _)]
    congr 3
    · push_cast; field_simp; ring
    · rw [Nat.cast_sub hle]; field_simp; ring
  rw [sum_congr rfl e, sum_add_distrib, dirichlet_val (by omega) (by omega)]
  by_cases hxx : x = x'
  · subst hxx
    have h1 : (-1 : ℝ) ^ (x + x + 1) = -1 := by
      rw [pow_succ, ← two_mul, pow_mul]; norm_num
    have h2 : (∑ k ∈ range N, (if k = 0 then (1 : ℝ) / 2 else 1) *
        Real.cos (2 * k * ((x - x : ℕ) * Real.pi / (2 * N)))) = N - 1 / 2 := by
      obtain ⟨n, rfl⟩ : ∃ n, N = n + 1 := ⟨N - 1, by omega⟩
      simp only [Nat.sub_self, Nat.cast_zero, zero_mul, zero_div, mul_zero, Real.cos_zero, mul_one]
      rw [sum_range_succ']
      simp
      ring
    rw [h1, h2, if_pos rfl]; ring
  · rw [dirichlet_val (by omega) (by omega), if_neg hxx]
    have h1 : (-1 : ℝ) ^ (x + x' + 1) = -(-1) ^ (x - x') := by
      have : x + x' + 1 = (x - x') + 2 * x' + 1 := by omega
      rw [this, pow_succ, pow_add, pow_mul]; norm_num
    rw [h1]; ring

end TinyDIP
