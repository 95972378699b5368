import Verif.Model.Stitch
import Verif.Spec.Stitch
import Verif.Lemmas.LinAlg
import Verif.Lemmas.Sift
import Mathlib.Tactic.FinCases
import Mathlib.Tactic.LinearCombination

/-!
# Lemmas about homographies
-/

namespace TinyDIP.Stitch

open TinyDIP Mat

section
variable {K : Type} [Field K] [LinearOrder K]

omit [LinearOrder K] in
theorem homog_eq (M : Matrix (Fin 3) (Fin 3) K) (x y : K) (i : Fin 3) :
    homog M x y i = M i 0 * x + M i 1 * y + M i 2 := by
  simp [homog, Matrix.mulVec, dotProduct, Fin.sum_univ_three]

/-- The elements as a structure. -/
def homOf (M : Matrix (Fin 3) (Fin 3) K) : Hom K :=
  ⟨M 0 0, M 0 1, M 0 2, M 1 0, M 1 1, M 1 2, M 2 0, M 2 1, M 2 2⟩

omit [LinearOrder K] in
theorem readHom_ok {H : Mat K} {M : Matrix (Fin 3) (Fin 3) K} (hH : H.Is M) :
    readHom H = .ok (homOf M) := by
  have g : ∀ i j : Fin 3, H.get (i : Nat) (j : Nat) = .ok (M i j) := hH.entry
  have g00 := g 0 0
  have g01 := g 0 1
  have g02 := g 0 2
  have g10 := g 1 0
  have g11 := g 1 1
  have g12 := g 1 2
  have g20 := g 2 0
  have g21 := g 2 1
  have g22 := g 2 2
  simp only [Fin.val_zero, Fin.val_one, Fin.val_two] at g00 g01 g02 g10 g11 g12 g20 g21 g22
  unfold readHom
  simp only [g00, g01, g02, g10, g11, g12, g20, g21, g22, Res.ok_bind, homOf]

omit [LinearOrder K] in
theorem homOf_w (M : Matrix (Fin 3) (Fin 3) K) (x y : K) : (homOf M).w x y = homog M x y 2 := by
  simp [homog, Matrix.mulVec, dotProduct, Fin.sum_univ_three, homOf, Hom.w]

omit [LinearOrder K] in
theorem homOf_px (M : Matrix (Fin 3) (Fin 3) K) (x y : K) : (homOf M).px x y = (project M x y).1 := by
  unfold project Hom.px
  rw [homOf_w]
  simp [homog, Matrix.mulVec, dotProduct, Fin.sum_univ_three, homOf]

omit [LinearOrder K] in
theorem homOf_py (M : Matrix (Fin 3) (Fin 3) K) (x y : K) : (homOf M).py x y = (project M x y).2 := by
  unfold project Hom.py
  rw [homOf_w]
  simp [homog, Matrix.mulVec, dotProduct, Fin.sum_univ_three, homOf]

/-! ### The linear system -/

omit [LinearOrder K] in
theorem setRow_reads {A : Mat K} {m n : Nat} {f : Nat → Nat → K} (h : A.Reads m n f) {r : Nat} (hr : r < m)
    (vs : List K) (hv : vs.length = n) :
    ∃ A', setRow A r vs = .ok A' ∧ A'.Reads m n (fun i j => if i = r then vs.getD j 0 else f i j) := by
  unfold setRow
  obtain ⟨A', e, hA⟩ := forUp_inv (n := vs.length) (body := fun A j => do
      let v ← vget vs j
      A.set r j v)
    (fun k A => A.Reads m n (fun i j => if i = r ∧ j < k then vs.getD j 0 else f i j))
    (by
      intro k B hk hB
      have hg : vget vs k = .ok (vs.getD k 0) := by
        rw [vget_eq_ok hk]; simp [hk]
      simp only [hg, Res.ok_bind]
      obtain ⟨B', e, hB'⟩ := hB.set hr (by omega : k < n) (vs.getD k 0)
      refine ⟨B', e, hB'.congr fun i j _ _ => ?_⟩
      by_cases h1 : i = r
      · by_cases h2 : j = k
        · subst h2; simp [h1]
        · by_cases h3 : j < k
          · simp [h1, h2, h3, Nat.lt_succ_of_lt h3]
          · have : ¬ j < k + 1 := by omega
            simp [h1, h2, h3, this]
      · simp [h1]) A (h.congr fun i j _ _ => by simp)
  refine ⟨A', e, hA.congr fun i j _ hj => ?_⟩
  by_cases h1 : i = r
  · simp [h1, hv, hj]
  · simp [h1]

/-- The two rows of a pair of points. -/
def row1 (p : Pt × Pt) : List K :=
  [-(p.1.1 : K), -(p.1.2 : K), -1, 0, 0, 0, (p.2.1 : K) * p.1.1, (p.2.1 : K) * p.1.2, p.2.1]
def row2 (p : Pt × Pt) : List K :=
  [0, 0, 0, -(p.1.1 : K), -(p.1.2 : K), -1, (p.2.2 : K) * p.1.1, (p.2.2 : K) * p.1.2, p.2.2]

def dltEntry (points : List (Pt × Pt)) (r c : Nat) : K :=
  (if r % 2 = 0 then row1 (points.getD (r / 2) ((0, 0), (0, 0)))
    else row2 (points.getD (r / 2) ((0, 0), (0, 0)))).getD c 0

theorem dltMatrix_reads (points : List (Pt × Pt)) (hf : 2 * points.length * 9 < 2 ^ 64) :
    ∃ A, dltMatrix (K := K) points = .ok A ∧ A.Reads (2 * points.length) 9 (dltEntry points) := by
  unfold dltMatrix
  have hw : wmul 2 points.length = 2 * points.length := wmul_of_lt (by omega)
  rw [hw]
  obtain ⟨A, e, hA⟩ := forUp_inv (n := points.length) (body := fun A i => do
      let p ← vget points i
      let x1 : K := p.1.1
      let y1 : K := p.1.2
      let x2 : K := p.2.1
      let y2 : K := p.2.2
      let A ← setRow A (wmul 2 i) [-x1, -y1, -1, 0, 0, 0, x2 * x1, x2 * y1, x2]
      setRow A (wadd (wmul 2 i) 1) [0, 0, 0, -x1, -y1, -1, y2 * x1, y2 * y1, y2])
    (fun k A => A.Reads (2 * points.length) 9 (fun i j => if i < 2 * k then dltEntry points i j else 0))
    (by
      intro k B hk hB
      have h1 : wmul 2 k = 2 * k := wmul_of_lt (by omega)
      have h2 : wadd (2 * k) 1 = 2 * k + 1 := wadd_of_lt (by omega)
      simp only [vget_eq_ok hk, Res.ok_bind, h1, h2]
      obtain ⟨B1, e1, hB1⟩ := setRow_reads hB (r := 2 * k) (by omega) (row1 points[k]) rfl
      obtain ⟨B2, e2, hB2⟩ := setRow_reads hB1 (r := 2 * k + 1) (by omega) (row2 points[k]) rfl
      unfold row1 at e1
      unfold row2 at e2
      simp only [e1, Res.ok_bind]
      refine ⟨B2, e2, hB2.congr fun i j _ _ => ?_⟩
      have hg : points.getD k ((0, 0), (0, 0)) = points[k] := by simp [hk]
      by_cases c1 : i = 2 * k + 1
      · subst c1
        have a : (2 * k + 1) % 2 = 1 := by omega
        have b : (2 * k + 1) / 2 = k := by omega
        rw [if_pos rfl, if_pos (by omega)]
        unfold dltEntry
        rw [a, b, hg]
        rfl
      · rw [if_neg c1]
        by_cases c2 : i = 2 * k
        · subst c2
          have a : (2 * k) % 2 = 0 := by omega
          have b : (2 * k) / 2 = k := by omega
          rw [if_pos rfl, if_pos (by omega)]
          unfold dltEntry
          rw [a, b, hg]
          rfl
        · rw [if_neg c2]
          by_cases c3 : i < 2 * k
          · rw [if_pos c3, if_pos (by omega)]
          · rw [if_neg c3, if_neg (by omega)])
    (mk' 0 (2 * points.length) 9) ((mk'_reads 0 hf).congr fun i j _ _ => by simp)
  exact ⟨A, e, hA.congr fun i j hi _ => by rw [if_pos hi]⟩

/-- The two residuals of a pair of points. -/
theorem dlt_residual (points : List (Pt × Pt)) (h : Fin 9 → K) (i : Nat) (hi : i < points.length) :
    (∑ c : Fin 9, dltEntry points (2 * i) c * h c =
      (points[i].2.1 : K) * homog (matOf h) points[i].1.1 points[i].1.2 2 -
        homog (matOf h) points[i].1.1 points[i].1.2 0) ∧
    (∑ c : Fin 9, dltEntry points (2 * i + 1) c * h c =
      (points[i].2.2 : K) * homog (matOf h) points[i].1.1 points[i].1.2 2 -
        homog (matOf h) points[i].1.1 points[i].1.2 1) := by
  have hg : points.getD i ((0, 0), (0, 0)) = points[i] := by simp [hi]
  have a0 : (2 * i) % 2 = 0 := by omega
  have b0 : (2 * i) / 2 = i := by omega
  have a1 : (2 * i + 1) % 2 = 1 := by omega
  have b1 : (2 * i + 1) / 2 = i := by omega
  constructor
  · unfold dltEntry
    rw [a0, b0, hg]
    simp only [homog_eq, matOf, Fin.sum_univ_succ, row1]
    simp
    ring
  · unfold dltEntry
    rw [a1, b1, hg]
    simp only [homog_eq, matOf, Fin.sum_univ_succ, row2]
    simp
    ring

end

end TinyDIP.Stitch
