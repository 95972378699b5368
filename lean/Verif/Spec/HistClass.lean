import Verif.Model.HistClass
import Verif.Spec.Hist

/-!
# Specification vocabulary: histogram objects and thresholds of images
-/

namespace TinyDIP.Hist

/-- Different levels have different indices below the number of levels (only used for vectors). -/
def Levels.Good {K : Type} (L : Levels K) : Prop :=
  L.dense = true → (∀ a b, L.idx a = L.idx b → a = b) ∧ ∀ k, L.idx k < L.n

/-- `h` is a usable histogram object that holds the count `cnt k` for every level `k`: a vector with one
entry per level, or a map with strictly increasing keys in which absent levels have count 0. -/
def Store.Counts {K : Type} [LinearOrder K] (L : Levels K) : Store K → (K → Nat) → Prop
  | .vec v, cnt => L.dense = true ∧ v.length = L.n ∧ ∀ k, v[L.idx k]? = some (cnt k)
  | .map m, cnt => L.dense = false ∧ (m.map (·.1)).Pairwise (· < ·) ∧
      (∀ k c, (k, c) ∈ m → cnt k = c) ∧ ∀ k, k ∉ m.map (·.1) → cnt k = 0

end TinyDIP.Hist

namespace TinyDIP

/-- Sum of the values of the pixels that satisfy `p`. -/
def pixelSum {α : Type} (w h : Nat) (f : Nat → Nat → α) (val : α → Nat) (p : α → Bool) : Nat :=
  ((List.range h).map fun y =>
    ((List.range w).map fun x => if p (f x y) then val (f x y) else 0).sum).sum

/-- The pixels of value at most `k`, and those above: how many, and their mean. -/
def darkCount {n : Nat} (w h : Nat) (f : Nat → Nat → Fin n) (k : Nat) : Nat :=
  pixelCount w h f fun v => decide (v.val ≤ k)
def brightCount {n : Nat} (w h : Nat) (f : Nat → Nat → Fin n) (k : Nat) : Nat :=
  pixelCount w h f fun v => decide (k < v.val)
def darkMean {n : Nat} (w h : Nat) (f : Nat → Nat → Fin n) (k : Nat) : ℚ :=
  (pixelSum w h f Fin.val fun v => decide (v.val ≤ k) : Nat) / (darkCount w h f k : ℚ)
def brightMean {n : Nat} (w h : Nat) (f : Nat → Nat → Fin n) (k : Nat) : ℚ :=
  (pixelSum w h f Fin.val fun v => decide (k < v.val) : Nat) / (brightCount w h f k : ℚ)

/-- How well the threshold `k` separates the pixels: sizes of the two groups times the squared distance of
their means. -/
def separation {n : Nat} (w h : Nat) (f : Nat → Nat → Fin n) (k : Nat) : ℚ :=
  darkCount w h f k * brightCount w h f k * (darkMean w h f k - brightMean w h f k) ^ 2

end TinyDIP
