import Verif.Model.HistClass
import Verif.Model.Rounding

/-!
# Model: Otsu's threshold in floating arithmetic

`otsu` (Hist) and `OtsuImage` (HistClass) with the rounding of every operation. Numbers are real numbers with `p`
significant bits (`double`: 53); overflow, underflow and fused operations are left out, see `Rounding`.
-/

namespace TinyDIP.Hist

open TinyDIP Rnd

/-- image_operations.h 1455-1459: total weight and weighted sum. -/
noncomputable def otsuTotalsF (p : Nat) (h : List ℝ) : ℝ × ℝ :=
  (List.range h.length).foldl
    (fun s i => (fl p (s.1 + h.getD i 0), fl p (s.2 + fl p (h.getD i 0 * fl p (i : ℝ))))) (0, 0)

open Classical in
/-- image_operations.h 1462-1478: one level. A weight of zero makes `ss` a NaN (the product of the weights is zero, the
difference of the means a NaN or an infinity), and the comparison with a NaN is false. -/
noncomputable def otsuStepF (p : Nat) (h : List ℝ) (s : OtsuState ℝ) (i : Nat) : OtsuState ℝ :=
  let tmp := h.getD i 0
  let w1 := fl p (s.w1 + tmp)
  let w2 := fl p (s.w2 - tmp)
  let tmp' := fl p (tmp * fl p (i : ℝ))
  let m1 := fl p (s.m1 + tmp')
  let m2 := fl p (s.m2 - tmp')
  if w1 = 0 ∨ w2 = 0 then ⟨w1, w2, m1, m2, s.ssMax, s.maxInd⟩
  else
    let c1 := fl p (m1 / w1)
    let c2 := fl p (m2 / w2)
    let c := fl p (c1 - c2)
    let ss := fl p (fl p (fl p (w1 * w2) * c) * c)
    if ss > s.ssMax then ⟨w1, w2, m1, m2, ss, i⟩ else ⟨w1, w2, m1, m2, s.ssMax, s.maxInd⟩

open Classical in
/-- image_operations.h 1445-1481 `otsu_threshold` of a histogram of floating numbers. -/
noncomputable def otsuF (p : Nat) (h : List ℝ) : Nat :=
  let t := otsuTotalsF p h
  let s := (List.range h.length).foldl (otsuStepF p h) ⟨0, t.1, 0, t.2, -1000000, 0⟩
  if s.ssMax = -1000000 then h.length else s.maxInd

/-- histogram.h 196-210 `to_probabilities_vector` for `n` unsigned levels: both counts are converted, then the
quotient is rounded. -/
def Store.ProbabilitiesF (p n : Nat) [NeZero n] (h : Store (Fin n)) (r : Res (List ℝ)) : Prop :=
  ∃ t, h.CountSum (.unsigned n) t ∧ r = (do
    let total ← t
    forUp n (fun out i => do
      let c ← h.getCount (.unsigned n) (Fin.ofNat n i)
      vset out i (fl p (fl p (c : ℝ) / fl p (total : ℝ)))) (List.replicate n 0))

/-- image_operations.h 1490-1512 `otsu_threshold` of an image (both overloads): the allowed results. -/
def OtsuImageF (p n : Nat) [NeZero n] (im : Image (Fin n)) (r : Res Nat) : Prop :=
  ∃ hist, Store.ofImage (.unsigned n) im = hist ∧
    match hist with
    | .ok h => ∃ l : Res (List ℝ), h.ProbabilitiesF p n l ∧ r = (do let l ← l; .ok (otsuF p l))
    | .throw e => r = .throw e
    | .ub => r = .ub

end TinyDIP.Hist
