import Verif.Model.Image
import Verif.Model.LinAlg
import Mathlib.Data.Matrix.Mul
import Mathlib.Algebra.Order.Field.Basic
import Mathlib.LinearAlgebra.Matrix.Notation

/-!
# Specification vocabulary for homographies

A homography is a 3×3 matrix; it sends the point `p` to the point whose homogeneous coordinates are
`M (p.1, p.2, 1)`.
-/

namespace TinyDIP.Stitch

variable {K : Type} [Field K]

/-- The three homogeneous coordinates of the image of `(x, y)`. -/
def homog (M : Matrix (Fin 3) (Fin 3) K) (x y : K) : Fin 3 → K :=
  M.mulVec ![x, y, 1]

/-- The image of `(x, y)`, meaningful when the third homogeneous coordinate is not zero. -/
def project (M : Matrix (Fin 3) (Fin 3) K) (x y : K) : K × K :=
  (homog M x y 0 / homog M x y 2, homog M x y 1 / homog M x y 2)

/-- `M` sends the point `(x, y)` to the point `q`. -/
def MapsTo (M : Matrix (Fin 3) (Fin 3) K) (x y : K) (q : K × K) : Prop :=
  homog M x y 2 ≠ 0 ∧ project M x y = q

/-- The matrix whose rows are the nine numbers in order. -/
def matOf (h : Fin 9 → K) : Matrix (Fin 3) (Fin 3) K :=
  !![h 0, h 1, h 2; h 3, h 4, h 5; h 6, h 7, h 8]

/-- The squared distance between the image of the first point and the second point. -/
def distSq (M : Matrix (Fin 3) (Fin 3) K) (p q : Nat × Nat) : K :=
  ((project M p.1 p.2).1 - q.1) ^ 2 + ((project M p.1 p.2).2 - q.2) ^ 2

/-- The algebraic error of a pair of points: the squared length of the two components of the cross
product of `(x₂, y₂, 1)` and `M (x₁, y₁, 1)`. It is zero exactly when `M` sends the first point to the second
(or the third homogeneous coordinate vanishes). -/
def algebraicError (M : Matrix (Fin 3) (Fin 3) K) (p q : Nat × Nat) : K :=
  (q.1 * homog M p.1 p.2 2 - homog M p.1 p.2 0) ^ 2 + (q.2 * homog M p.1 p.2 2 - homog M p.1 p.2 1) ^ 2

/-- The corners of an image. -/
def corners (w h : Nat) : List (Nat × Nat) := [(0, 0), (w - 1, 0), (0, h - 1), (w - 1, h - 1)]

/-! ### Robust estimation -/

/-- Every match refers to key points that exist. -/
def InRange (kp1 kp2 : List (Nat × Nat)) (ms : List (Nat × Nat)) : Prop :=
  ∀ m ∈ ms, m.1 < kp1.length ∧ m.2 < kp2.length

/-- The two points of a match. -/
def matchPts (kp1 kp2 : List (Nat × Nat)) (m : Nat × Nat) : (Nat × Nat) × (Nat × Nat) :=
  (kp1.getD m.1 (0, 0), kp2.getD m.2 (0, 0))

/-- The sample of one iteration: the matches numbered by the first four different draws. -/
def sampleOf (kp1 kp2 : List (Nat × Nat)) (ms : List (Nat × Nat)) (ds : List Nat) :
    List ((Nat × Nat) × (Nat × Nat)) :=
  (ds.eraseDups.take 4).map fun i => matchPts kp1 kp2 (ms.getD i (0, 0))

variable [LinearOrder K]

/-- The first point has an image (its third coordinate is not nearly zero), at a squared distance below
the threshold from the second point. -/
def Inlier (eps thresholdSq : K) (M : Matrix (Fin 3) (Fin 3) K) (p : (Nat × Nat) × (Nat × Nat)) : Prop :=
  eps ≤ |homog M p.1.1 p.1.2 2| ∧ distSq M p.1 p.2 < thresholdSq

/-- The squared error of a pair of points: the threshold when the first point has no image. -/
def scoredError (eps thresholdSq : K) (M : Matrix (Fin 3) (Fin 3) K) (p : (Nat × Nat) × (Nat × Nat)) : K :=
  if |homog M p.1.1 p.1.2 2| < eps then thresholdSq else distSq M p.1 p.2

/-! ### A sequence of images -/

section
variable {α K : Type} (find : Image α → Image α → Res (Mat K))
  (stitch : Image α → Image α → Mat K → Res (Image α))

/-- `np` is the panorama `pan` extended by `next`: a homography is found, the two are stitched and the result has
columns. -/
def Extends (pan next np : Image α) : Prop :=
  ∃ h, find pan next = .ok h ∧ ¬ (h.rows = 0 ∨ h.cols = 0) ∧ stitch pan next h = .ok np ∧
    ∃ w s, np.size = w :: s ∧ w ≠ 0

/-- The panorama `pan` cannot be extended by `next`: no homography is found, or the stitched image has a first
size of zero. -/
def CannotExtend (pan next : Image α) : Prop :=
  ∃ h, find pan next = .ok h ∧
    ((h.rows = 0 ∨ h.cols = 0) ∨ ∃ np s, stitch pan next h = .ok np ∧ np.size = 0 :: s)

/-- `out` is obtained from `first` by extending with the images of the list, one after the other. -/
def Panorama : Image α → List (Image α) → Image α → Prop
  | first, [], out => out = first
  | first, next :: rest, out => ∃ np, Extends find stitch first next np ∧ Panorama np rest out

end

end TinyDIP.Stitch
