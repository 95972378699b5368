import Verif.Spec.WarpSpecial
import Verif.Lemmas.StitchWarp
import Verif.Props.Special
import Verif.Props.InvertFlt

/-!
# Property C221: the perspective warp with an execution policy, infinities and NaN

Full statement of C221: the warp with an execution policy inverts the homography and takes every pixel from the point
the inverse sends it to; it is blank exactly when the homography has no inverse.

What is missing: a homography with NaN and one whose determinant overflows give a blank picture although they are not
reported as not invertible.
-/

namespace TinyDIP.Props

open TinyDIP Rnd Sp Dbl Stitch

open scoped Classical

/-! ## C221 -/

theorem crossD_is {a b c d : ℝ} (ha : |a| ≤ 2 ^ 80) (hb : |b| ≤ 2 ^ 80) (hc : |c| ≤ 2 ^ 80) (hd : |d| ≤ 2 ^ 80) :
    Is 163 (crossD (.num a) (.num b) (.num c) (.num d)) (Mat.crossF a b c d) :=
  is_sub (is_mul (is_num ha) (is_num hb) (by norm_num)) (is_mul (is_num hc) (is_num hd) (by norm_num)) (by norm_num)

theorem detD_is {M : Matrix (Fin 3) (Fin 3) ℝ} (hM : ∀ i j, |M i j| ≤ 2 ^ 80) :
    Is 248 (detD (homOfMat M)) (detF M) := by
  have h1 := is_mul (is_num (hM 0 0)) (crossD_is (hM 1 1) (hM 2 2) (hM 2 1) (hM 1 2)) (by norm_num)
  have h2 := is_mul (is_num (hM 0 1)) (crossD_is (hM 1 0) (hM 2 2) (hM 1 2) (hM 2 0)) (by norm_num)
  have h3 := is_mul (is_num (hM 0 2)) (crossD_is (hM 1 0) (hM 2 1) (hM 1 1) (hM 2 0)) (by norm_num)
  exact is_add (is_sub h1 h2 (by norm_num)) (h3.mono (by norm_num)) (by norm_num)

theorem invertD_small {M : Matrix (Fin 3) (Fin 3) ℝ} (hM : ∀ i j, |M i j| ≤ 2 ^ 80)
    (h : |detF M| < dbl (1 / 10 ^ 9)) : invertD (homOfMat M) = none := by
  unfold invertD
  rw [if_pos]
  rw [(detD_is hM).1]
  exact h

theorem invertD_run {M : Matrix (Fin 3) (Fin 3) ℝ} (hM : ∀ i j, |M i j| ≤ 2 ^ 80)
    (h : ¬ |detF M| < dbl (1 / 10 ^ 9)) :
    invertD (homOfMat M) = some (homOfMat (Matrix.of fun i j => dbl (adjF M i j * dbl (1 / detF M)))) ∧
      ∀ i j, |dbl (adjF M i j * dbl (1 / detF M))| ≤ 2 ^ 300 := by
  have hd := detD_is hM
  have hinv : Is 32 ((Dbl.num 1).div (detD (homOfMat M))) (dbl (1 / detF M)) := by
    have := is_div (k := 0) (j := 31) (is_num (x := 1) (by norm_num)) hd.1 (by
      have := small_close.1
      have h' := not_lt.1 h
      norm_num at this h' ⊢
      linarith) (by norm_num)
    exact this
  have c : ∀ i1 j1 i2 j2 i3 j3 i4 j4 : Fin 3, Is 196
      ((crossD (.num (M i1 j1)) (.num (M i2 j2)) (.num (M i3 j3)) (.num (M i4 j4))).mul
        ((Dbl.num 1).div (detD (homOfMat M))))
      (dbl (Mat.crossF (M i1 j1) (M i2 j2) (M i3 j3) (M i4 j4) * dbl (1 / detF M))) := fun _ _ _ _ _ _ _ _ =>
    is_mul (crossD_is (hM _ _) (hM _ _) (hM _ _) (hM _ _)) hinv (by norm_num)
  constructor
  · unfold invertD
    rw [if_neg (by rw [hd.1]; exact h)]
    have e : ∀ i1 j1 i2 j2 i3 j3 i4 j4, _ := fun i1 j1 i2 j2 i3 j3 i4 j4 => (c i1 j1 i2 j2 i3 j3 i4 j4).1
    simp only [homOfMat, Matrix.of_apply] at e ⊢
    simp only [e]
    rfl
  · intro i j
    have hb : ∀ i1 j1 i2 j2 i3 j3 i4 j4 : Fin 3,
        |dbl (Mat.crossF (M i1 j1) (M i2 j2) (M i3 j3) (M i4 j4) * dbl (1 / detF M))| ≤ 2 ^ 300 :=
      fun i1 j1 i2 j2 i3 j3 i4 j4 => ((c i1 j1 i2 j2 i3 j3 i4 j4).mono (by norm_num)).2
    fin_cases i <;> fin_cases j
    · exact hb 1 1 2 2 2 1 1 2
    · exact hb 0 2 2 1 0 1 2 2
    · exact hb 0 1 1 2 0 2 1 1
    · exact hb 1 2 2 0 1 0 2 2
    · exact hb 0 0 2 2 0 2 2 0
    · exact hb 1 0 0 2 0 0 1 2
    · exact hb 1 0 2 1 2 0 1 1
    · exact hb 2 0 0 1 0 0 2 1
    · exact hb 0 0 1 1 1 0 0 1

/-- The loop of the warp for an inverse made of numbers. -/
theorem warpLoop (src : Image (BitVec 8)) (w₀ h₀ : Nat) (f : Nat → Nat → BitVec 8) (s : src.Shows w₀ h₀ f)
    (hw₀ : w₀ ≤ 2 ^ 53) (hh₀ : h₀ ≤ 2 ^ 53) (m : Hom) (K : Matrix (Fin 3) (Fin 3) ℝ)
    (hm : invertD m = some (homOfMat K)) (hK : ∀ i j, |K i j| ≤ 2 ^ 300)
    (w h : Nat) (hw : w ≤ 2 ^ 53) (hh : h ≤ 2 ^ 53) (hwh : w * h < 2 ^ 64) (order : List Nat)
    (ho : order.Perm (List.range (w * h))) :
    ∃ out g, warpPolicyD 0 (Sp.bicubic .u8 0 src) m w h order = .ok out ∧ out.Shows w h g ∧
      ∀ x y : Nat, x < w → y < h →
        (|affine (K 2 0) (K 2 1) (K 2 2) x y| ≤ 1 / 2 ^ 52 → g x y = 0) ∧
        (1 / 2 ^ 52 < |affine (K 2 0) (K 2 1) (K 2 2) x y| → Sp.bicubic .u8 0 src
          (.num (dbl (affine (K 0 0) (K 0 1) (K 0 2) x y / affine (K 2 0) (K 2 1) (K 2 2) x y)))
          (.num (dbl (affine (K 1 0) (K 1 1) (K 1 2) x y / affine (K 2 0) (K 2 1) (K 2 2) x y))) = .ok (g x y)) := by
  have hs := fun x y : ℝ => bicubic_ok Elem.u8_sound 0 s hw₀ hh₀ (x := .num x) (y := .num y) (fun h => nomatch h)
    (fun h => nomatch h)
  choose val hval using hs
  let W : Nat → Nat → ℝ := fun x y => affine (K 2 0) (K 2 1) (K 2 2) x y
  let G : Nat → Nat → BitVec 8 := fun x y => val (dbl (affine (K 0 0) (K 0 1) (K 0 2) x y / W x y))
    (dbl (affine (K 1 0) (K 1 1) (K 1 2) x y / W x y))
  have hpos : ∀ i ∈ order, 0 < w ∧ i < w * h := by
    intro i hi
    have : i < w * h := List.mem_range.1 (ho.mem_iff.1 hi)
    rcases Nat.eq_zero_or_pos w with h0 | h0
    · subst h0; simp at this
    · exact ⟨h0, this⟩
  have hin : ∀ i ∈ order, i % w < w ∧ i / w < h := fun i hi =>
    ⟨Nat.mod_lt _ (hpos i hi).1, Nat.div_lt_of_lt_mul (hpos i hi).2⟩
  obtain ⟨out, e, so⟩ := loop_someWrite (w := w) (h := h) (fun i : Nat => (i % w, i / w))
    (fun p => decide (1 / 2 ^ 52 < |W p.1 p.2|)) G
    (fun (out : Image (BitVec 8)) idx => do
      let y ← udiv idx w
      let x ← umod idx w
      let d := lin (homOfMat K).h31 (homOfMat K).h32 (homOfMat K).h33 x y
      if (Dbl.num (1 / 2 ^ 52)).lt d.abs then do
        let v ← Sp.bicubic .u8 0 src ((lin (homOfMat K).h11 (homOfMat K).h12 (homOfMat K).h13 x y).div d)
          ((lin (homOfMat K).h21 (homOfMat K).h22 (homOfMat K).h23 x y).div d)
        out.set2 x y v
      else .ok out) order hin
    (by
      intro i hi hc im
      have hw0 : w ≠ 0 := by have := (hpos i hi).1; omega
      obtain ⟨hx, hy⟩ := hin i hi
      have ed := lin_is (hK 2 0) (hK 2 1) (hK 2 2) (x := i % w) (y := i / w) (by omega) (by omega)
      have hc' : 1 / 2 ^ 52 < |W (i % w) (i / w)| := by simpa using hc
      simp only [udiv, umod, hw0, if_false, Res.ok_bind]
      have e0 : lin (homOfMat K).h31 (homOfMat K).h32 (homOfMat K).h33 (i % w) (i / w) = .num (W (i % w) (i / w)) := ed.1
      have e1 : (lin (homOfMat K).h11 (homOfMat K).h12 (homOfMat K).h13 (i % w) (i / w)).div
          (lin (homOfMat K).h31 (homOfMat K).h32 (homOfMat K).h33 (i % w) (i / w)) =
          .num (dbl (affine (K 0 0) (K 0 1) (K 0 2) (i % w) (i / w) / W (i % w) (i / w))) :=
        (is_div (lin_is (hK 0 0) (hK 0 1) (hK 0 2) (by omega) (by omega)) ed.1 (j := 52) hc'.le (by norm_num)).1
      have e2 : (lin (homOfMat K).h21 (homOfMat K).h22 (homOfMat K).h23 (i % w) (i / w)).div
          (lin (homOfMat K).h31 (homOfMat K).h32 (homOfMat K).h33 (i % w) (i / w)) =
          .num (dbl (affine (K 1 0) (K 1 1) (K 1 2) (i % w) (i / w) / W (i % w) (i / w))) :=
        (is_div (lin_is (hK 1 0) (hK 1 1) (hK 1 2) (by omega) (by omega)) ed.1 (j := 52) hc'.le (by norm_num)).1
      rw [if_pos (by rw [e0]; exact hc'), e1, e2, hval, Res.ok_bind])
    (by
      intro i hi hc im
      have hw0 : w ≠ 0 := by have := (hpos i hi).1; omega
      obtain ⟨hx, hy⟩ := hin i hi
      have ed := lin_is (hK 2 0) (hK 2 1) (hK 2 2) (x := i % w) (y := i / w) (by omega) (by omega)
      have hc' : ¬ 1 / 2 ^ 52 < |W (i % w) (i / w)| := by simpa using hc
      simp only [udiv, umod, hw0, if_false, Res.ok_bind]
      have e0 : lin (homOfMat K).h31 (homOfMat K).h32 (homOfMat K).h33 (i % w) (i / w) = .num (W (i % w) (i / w)) := ed.1
      rw [if_neg (by rw [e0]; exact hc')])
    (by
      intro x y hx hy
      have hw0 : 0 < w := by omega
      refine ⟨x + w * y, ho.mem_iff.2 (List.mem_range.2 ?_), ?_⟩
      · have : w * (y + 1) ≤ w * h := Nat.mul_le_mul_left w hy
        rw [Nat.mul_add, Nat.mul_one] at this
        omega
      · simp [Nat.add_mul_mod_self_left, Nat.mod_eq_of_lt hx, Nat.add_mul_div_left _ _ hw0, Nat.div_eq_of_lt hx])
    (ofSizes_shows (0 : BitVec 8) (w := w) (h := h) (by omega) (by omega) hwh)
  refine ⟨out, _, ?_, so, fun x y hx hy => ⟨fun h1 => ?_, fun h1 => ?_⟩⟩
  · unfold warpPolicyD
    rw [hm]
    exact e
  · rw [if_neg (by simpa [W] using h1)]
  · rw [if_pos (by simpa [W] using h1), hval]

/-- Entries of a magnitude up to `2 ^ 80`, with every order of the policy: the warp never fails. A determinant clearly
below the limit gives a blank picture. A determinant clearly above it gives a picture of samples at the points that `K`
sends the pixels to, where `K` is the inverse up to rounding (the cofactors over a common denominator near the
determinant), and zero where the denominator of the point is at most `2 ^ -52`. Missing: NaN and larger entries, see
`C221_nan_violation` and `C221_overflow_violation`. -/
theorem C221_warp_partial (src : Image (BitVec 8)) (w₀ h₀ : Nat) (f : Nat → Nat → BitVec 8) (s : src.Shows w₀ h₀ f)
    (hw₀ : w₀ ≤ 2 ^ 53) (hh₀ : h₀ ≤ 2 ^ 53) (M : Matrix (Fin 3) (Fin 3) ℝ) (hM : ∀ i j, |M i j| ≤ 2 ^ 80)
    (w h : Nat) (hw : w ≤ 2 ^ 53) (hh : h ≤ 2 ^ 53) (hwh : w * h < 2 ^ 64) (order : List Nat)
    (ho : order.Perm (List.range (w * h))) :
    ∃ out g, warpPolicyD 0 (Sp.bicubic .u8 0 src) (homOfMat M) w h order = .ok out ∧ out.Shows w h g ∧
      (|M.det| + 6 / 2 ^ 53 * LinSpec.absDet M ≤ 9 / 10 ^ 10 → ∀ x y, x < w → y < h → g x y = 0) ∧
      (11 / 10 ^ 10 + 6 / 2 ^ 53 * LinSpec.absDet M ≤ |M.det| →
        ∃ K : Matrix (Fin 3) (Fin 3) ℝ, ∃ D : ℝ, D ≠ 0 ∧ |D - M.det| ≤ 6 / 2 ^ 53 * LinSpec.absDet M ∧
          (∀ i j, |K i j * D - M.adjugate i j| ≤ 5 / 2 ^ 53 * LinSpec.absCof M i j) ∧
          ∀ x y : Nat, x < w → y < h →
            (|affine (K 2 0) (K 2 1) (K 2 2) x y| ≤ 1 / 2 ^ 52 → g x y = 0) ∧
            (1 / 2 ^ 52 < |affine (K 2 0) (K 2 1) (K 2 2) x y| → Sp.bicubic .u8 0 src
              (.num (dbl (affine (K 0 0) (K 0 1) (K 0 2) x y / affine (K 2 0) (K 2 1) (K 2 2) x y)))
              (.num (dbl (affine (K 1 0) (K 1 1) (K 1 2) x y / affine (K 2 0) (K 2 1) (K 2 2) x y))) =
                .ok (g x y))) := by
  have close := det_close M
  obtain ⟨p, q⟩ := small_close
  by_cases hd : |detF M| < dbl (1 / 10 ^ 9)
  · refine ⟨_, fun _ _ => 0, by unfold warpPolicyD; rw [invertD_small hM hd],
      ofSizes_shows 0 (by omega) (by omega) hwh, fun _ _ _ _ _ => rfl, fun hb => ?_⟩
    exfalso
    have := abs_sub_abs_le_abs_sub M.det (detF M)
    rw [abs_sub_comm] at this
    linarith
  · obtain ⟨e, hK⟩ := invertD_run hM hd
    obtain ⟨out, g, e1, s1, h1⟩ := warpLoop src w₀ h₀ f s hw₀ hh₀ _ _ e
      (fun i j => by rw [Matrix.of_apply]; exact hK i j) w h hw hh hwh order ho
    refine ⟨out, g, e1, s1, fun hb => ?_, fun _ => ⟨_, detF M, ?_, close, fun i j => ?_, h1⟩⟩
    · exfalso
      have := abs_sub_abs_le_abs_sub (detF M) M.det
      linarith
    · intro e; rw [e, abs_zero] at hd; linarith
    · rw [Matrix.of_apply]
      exact entry_close M (by intro e; rw [e, abs_zero] at hd; linarith) i j

/-- A shear of a picture of 5 × 4 pixels into a frame of 3 × 2 pixels, and a matrix without an inverse. -/
example : ∃ out g, warpPolicyD 0 (Sp.bicubic .u8 0 dots) (homOfMat !![2, 1, 0; 0, 1, 0; 0, 0, 1]) 3 2 [0, 1, 2, 3, 4, 5] =
    .ok out ∧ out.Shows 3 2 g := by
  obtain ⟨out, g, e, so, -⟩ := C221_warp_partial dots 5 4 _ dots_shows (by norm_num) (by norm_num)
    !![2, 1, 0; 0, 1, 0; 0, 0, 1] (by intro i j; fin_cases i <;> fin_cases j <;> norm_num) 3 2 (by norm_num) (by norm_num)
    (by norm_num) [0, 1, 2, 3, 4, 5] (by decide)
  exact ⟨out, g, e, so⟩
example : 11 / 10 ^ 10 + 6 / 2 ^ 53 * LinSpec.absDet !![2, 1, 0; 0, 1, 0; 0, 0, 1] ≤
    |(!![2, 1, 0; 0, 1, 0; 0, 0, 1] : Matrix (Fin 3) (Fin 3) ℝ).det| := by
  rw [Matrix.det_fin_three]
  simp [LinSpec.absDet]
  norm_num
example : |(!![1, 1, 0; 1, 1, 0; 0, 0, 0] : Matrix (Fin 3) (Fin 3) ℝ).det| +
    6 / 2 ^ 53 * LinSpec.absDet !![1, 1, 0; 1, 1, 0; 0, 0, 0] ≤ 9 / 10 ^ 10 := by
  rw [Matrix.det_fin_three]
  simp [LinSpec.absDet]
  norm_num

theorem addn (a : Dbl) : a.add .nan = .nan := by cases a <;> rfl
theorem nadd (a : Dbl) : Dbl.nan.add a = .nan := rfl
theorem muln (a : Dbl) : a.mul .nan = .nan := by cases a <;> rfl
theorem nmul (a : Dbl) : Dbl.nan.mul a = .nan := rfl

theorem nan_crossD {a b c d : Dbl} (h : a = .nan ∨ b = .nan ∨ c = .nan ∨ d = .nan) : crossD a b c d = .nan := by
  unfold crossD Dbl.sub
  rcases h with rfl | rfl | rfl | rfl <;> simp [muln, nmul, addn, nadd, Dbl.neg]

theorem nan_detD {m : Hom} (h : Dbl.nan ∈ m.entries) : detD m = .nan := by
  unfold detD Dbl.sub
  simp only [Hom.entries, List.mem_cons, List.not_mem_nil, or_false] at h
  rcases h with h | h | h | h | h | h | h | h | h <;> rw [← h] <;>
    simp [muln, nmul, addn, nadd, Dbl.neg, nan_crossD]

theorem loop_same {β σ : Type} (body : σ → β → Res σ) (l : List β) (s : σ) (h : ∀ b ∈ l, body s b = .ok s) :
    loop body l s = .ok s := by
  induction l with
  | nil => rfl
  | cons b l ih =>
    unfold loop
    rw [h b (by simp)]
    exact ih fun b hb => h b (by simp [hb])

/-- A homography with a NaN anywhere is not reported as a matrix without an inverse: its "inverse" is NaN in all nine
entries. The warp then leaves every pixel at zero, for every picture and sampling method and in every order (without a
policy the same homography makes the warp undefined, `C160_nan_violation`). -/
theorem C221_nan_violation {α : Type} (zero : α) (interp : Dbl → Dbl → Res α) (m : Hom) (hm : Dbl.nan ∈ m.entries)
    (w h : Nat) (hw : w < 2 ^ 64) (hh : h < 2 ^ 64) (hwh : w * h < 2 ^ 64) (order : List Nat)
    (ho : order.Perm (List.range (w * h))) :
    (∃ k, invertD m = some k ∧ ∀ v ∈ k.entries, v = .nan) ∧
    ∃ out, warpPolicyD zero interp m w h order = .ok out ∧ out.Shows w h (fun _ _ => zero) := by
  have hd := nan_detD hm
  have hk : invertD m = some ⟨.nan, .nan, .nan, .nan, .nan, .nan, .nan, .nan, .nan⟩ := by
    unfold invertD
    rw [if_neg (by rw [hd]; exact fun h => h), hd]
    simp only [show (Dbl.num 1).div .nan = .nan from rfl, muln]
  refine ⟨⟨_, hk, by simp [Hom.entries]⟩, _, ?_, ofSizes_shows zero hw hh hwh⟩
  unfold warpPolicyD
  rw [hk]
  refine loop_same _ _ _ fun i hi => ?_
  have : i < w * h := List.mem_range.1 (ho.mem_iff.1 hi)
  have hw0 : w ≠ 0 := by rintro rfl; simp at this
  simp only [udiv, umod, hw0, if_false, Res.ok_bind]
  exact if_neg (show ¬ (Dbl.num (1 / 2 ^ 52)).lt (lin .nan .nan .nan (i % w) (i / w)).abs from fun h => h)

/-- Enlarging by a factor between `2 ^ 342` and `2 ^ 511` in all three coordinates — a homography with an inverse, equal
to the identity as a map of points — overflows in the determinant: the "inverse" is the zero matrix and the warp leaves
every pixel at zero. -/
theorem C221_overflow_violation {α : Type} (zero : α) (interp : Dbl → Dbl → Res α) (a : ℝ) (ha : 2 ^ 342 ≤ a)
    (hb : a ≤ 2 ^ 511) (w h : Nat) (hw : w ≤ 2 ^ 53) (hh : h ≤ 2 ^ 53) (hwh : w * h < 2 ^ 64) (order : List Nat)
    (ho : order.Perm (List.range (w * h))) :
    (Matrix.diagonal ![a, a, a]).det ≠ 0 ∧ invertD (homOfMat (Matrix.diagonal ![a, a, a])) = some (homOfMat 0) ∧
    ∃ out, warpPolicyD zero interp (homOfMat (Matrix.diagonal ![a, a, a])) w h order = .ok out ∧
      out.Shows w h (fun _ _ => zero) := by
  have r0 : Dbl.rnd 0 = .num 0 := by rw [rnd_of_lt] <;> simp [dbl_zero]
  have a0 : 0 < a := lt_of_lt_of_le (by positivity) ha
  have haa : Is 1023 ((Dbl.num a).mul (.num a)) (dbl (a * a)) :=
    is_mul (j := 511) (k := 511) (is_num (by rwa [abs_of_pos a0])) (is_num (by rwa [abs_of_pos a0])) (by norm_num)
  have haa' : (2 : ℝ) ^ 684 ≤ dbl (a * a) := by
    have h1 : dbl ((2 : ℝ) ^ 684) = 2 ^ 684 := by
      refine dbl_of_rep ⟨1, 684, by norm_num, ?_⟩
      rw [Int.cast_one, one_mul]; exact (zpow_natCast 2 684).symm
    rw [← h1]
    refine dbl_mono ?_
    calc (2 : ℝ) ^ 684 = 2 ^ 342 * 2 ^ 342 := by rw [← pow_add]
      _ ≤ a * a := mul_le_mul ha ha (by positivity) a0.le
  have hbig : (Dbl.num a).mul (.num (dbl (a * a))) = .pinf := by
    have h1 : dbl ((2 : ℝ) ^ 1024) = 2 ^ 1024 := by
      refine dbl_of_rep ⟨1, 1024, by norm_num, ?_⟩
      rw [Int.cast_one, one_mul]; exact (zpow_natCast 2 1024).symm
    have h2 : (2 : ℝ) ^ 1024 ≤ dbl (a * dbl (a * a)) := by
      rw [← h1]
      refine dbl_mono ?_
      calc (2 : ℝ) ^ 1024 ≤ 2 ^ 1026 := pow_le_pow_right₀ (by norm_num) (by norm_num)
        _ = 2 ^ 342 * 2 ^ 684 := by rw [← pow_add]
        _ ≤ a * dbl (a * a) := mul_le_mul ha haa' (by positivity) a0.le
    exact if_pos h2
  have z1 : ∀ x : ℝ, (Dbl.num x).mul (.num 0) = .num 0 := fun x => by
    show Dbl.rnd (x * 0) = _; rw [mul_zero, r0]
  have z2 : ∀ x : ℝ, (Dbl.num 0).mul (.num x) = .num 0 := fun x => by
    show Dbl.rnd (0 * x) = _; rw [zero_mul, r0]
  have z3 : (Dbl.num 0).sub (.num 0) = .num 0 := by
    show Dbl.rnd (0 + -0) = _; rw [neg_zero, add_zero, r0]
  have z4 : (Dbl.num (dbl (a * a))).sub (.num 0) = .num (dbl (a * a)) := by
    show Dbl.rnd (dbl (a * a) + -0) = _
    rw [neg_zero, add_zero, rnd_of_lt, dbl_of_rep (dbl_rep _)]
    rw [dbl_of_rep (dbl_rep _)]
    exact lt_of_le_of_lt haa.2 (pow_lt_pow_right₀ (by norm_num) (by norm_num))
  have c0 : crossD (.num a) (.num a) (.num 0) (.num 0) = .num (dbl (a * a)) := by
    unfold crossD; rw [z1, haa.1, z4]
  have c1 : crossD (.num 0) (.num 0) (.num 0) (.num a) = .num 0 := by unfold crossD; rw [z2, z2, z3]
  have c2 : crossD (.num 0) (.num a) (.num 0) (.num 0) = .num 0 := by unfold crossD; rw [z2, z2, z3]
  have c3 : crossD (.num 0) (.num 0) (.num a) (.num 0) = .num 0 := by unfold crossD; rw [z2, z1, z3]
  have c4 : crossD (.num 0) (.num 0) (.num 0) (.num 0) = .num 0 := by unfold crossD; rw [z2, z3]
  have c5 : crossD (.num a) (.num 0) (.num 0) (.num 0) = .num 0 := by unfold crossD; rw [z1, z2, z3]
  have eh : homOfMat (Matrix.diagonal ![a, a, a]) =
      ⟨.num a, .num 0, .num 0, .num 0, .num a, .num 0, .num 0, .num 0, .num a⟩ := by
    simp [homOfMat]
  have hd : detD ⟨.num a, .num 0, .num 0, .num 0, .num a, .num 0, .num 0, .num 0, .num a⟩ = .pinf := by
    unfold detD
    simp only [c0, c2, c3, hbig, z2]
    rfl
  have hk : invertD (homOfMat (Matrix.diagonal ![a, a, a])) = some (homOfMat 0) := by
    rw [eh]
    unfold invertD
    rw [if_neg (by rw [hd]; exact fun h => h), hd]
    simp only [show (Dbl.num 1).div .pinf = .num 0 from rfl]
    simp only [c0, c1, c2, c3, c4, c5, z1]
    rfl
  refine ⟨by rw [Matrix.det_diagonal]; simp [Fin.prod_univ_three, a0.ne'], hk, _, ?_, ofSizes_shows zero (by omega) (by omega) hwh⟩
  unfold warpPolicyD
  rw [hk]
  refine loop_same _ _ _ fun i hi => ?_
  have hi' : i < w * h := List.mem_range.1 (ho.mem_iff.1 hi)
  have hw0 : w ≠ 0 := by rintro rfl; simp at hi'
  have hx : i % w < w := Nat.mod_lt _ (by omega)
  have hy : i / w < h := Nat.div_lt_of_lt_mul hi'
  simp only [udiv, umod, hw0, if_false, Res.ok_bind]
  have hl : lin (homOfMat 0).h31 (homOfMat 0).h32 (homOfMat 0).h33 (i % w) (i / w) = .num 0 := by
    show lin (.num 0) (.num 0) (.num 0) (i % w) (i / w) = _
    unfold lin
    rw [ofNat_eq (by omega), ofNat_eq (by omega), z2, z2]
    show (Dbl.rnd (0 + 0)).add _ = _
    rw [add_zero, r0]
    show Dbl.rnd (0 + 0) = _
    rw [add_zero, r0]
  rw [if_neg]
  rw [hl]
  show ¬ (1 / 2 ^ 52 : ℝ) < |0|
  norm_num

example := C221_nan_violation (0 : BitVec 8) (Sp.bicubic .u8 0 dots)
  ⟨.num 1, .num 0, .num 0, .num 0, .num 1, .num 0, .num 0, .nan, .num 1⟩ (by simp [Hom.entries]) 3 2 (by norm_num)
  (by norm_num) (by norm_num) [5, 4, 3, 2, 1, 0] (by decide)
example := C221_overflow_violation (0 : BitVec 8) (Sp.bicubic .u8 0 dots) (2 ^ 400)
  (pow_le_pow_right₀ (by norm_num) (by norm_num)) (pow_le_pow_right₀ (by norm_num) (by norm_num)) 3 2 (by norm_num)
  (by norm_num) (by norm_num) [5, 4, 3, 2, 1, 0] (by decide)

end TinyDIP.Props
