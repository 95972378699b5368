import Verif.Spec.Stitch
import Verif.Spec.Match
import Verif.Spec.Draw
import Verif.Model.Sift
import Verif.Model.Pixelwise
import Mathlib.Data.List.Forall2

/-!
# Specification vocabulary: from two photographs to a homography, and drawing matches
-/

namespace TinyDIP.Stitch

/-- The brightest channel of a pixel. -/
noncomputable def brightness (p : RGB) : ℝ := ((max p.c0.toNat (max p.c1.toNat p.c2.toNat) : Nat) : ℝ)

/-- `ds` lists the descriptors of the key points, in order (C87 says what a descriptor is). -/
def DescriptorsOf (v : Image ℝ) (kps : List (Nat × Nat)) (ds : List (List ℝ)) : Prop :=
  List.Forall₂ (fun p d => Sift.keypointDescriptor v p.1 p.2 8 = .ok d ∧ d.length = 128) kps ds

/-- Squared Euclidean distance. -/
noncomputable def squaredDistance (a b : List ℝ) : ℝ := ((a.zip b).map fun p => (p.1 - p.2) ^ 2).sum

/-- `ms` lists, without repeating a key point, exactly the pairs that are each other's nearest neighbours and pass
the ratio test in both directions. -/
structure MutualMatches (big ratio : ℝ) (d1 d2 : List (List ℝ)) (ms : List (Nat × Nat)) : Prop where
  mem : ∀ i j, (i, j) ∈ ms ↔
    Match.RawMatch squaredDistance big ratio d1 d2 i j ∧ Match.RawMatch squaredDistance big ratio d2 d1 j i
  nodup1 : (ms.map Prod.fst).Nodup
  nodup2 : (ms.map Prod.snd).Nodup

/-- A point of the grid lies on the mark of a match of `p` and `q`: near the line that joins them, or in
one of the discs of radius 5 around them. -/
def OnMark (p q : Nat × Nat) (x y : Nat) : Prop :=
  NearLine ((p.1 : Int), (p.2 : Int)) ((q.1 : Int), (q.2 : Int)) ((x : Int), (y : Int)) ∨
    InDisc p.1 p.2 5 x y ∨ InDisc q.1 q.2 5 x y

/-- A point of the grid that must be marked for a match of `p` and `q`: one of the two points, or a point of the disc
of radius 5 around one that is at least 5 away from the left and the top border (C45: nearer discs are not
drawn). -/
def MustMark (p q : Nat × Nat) (x y : Nat) : Prop :=
  (x, y) = p ∨ (x, y) = q ∨ (5 ≤ p.1 ∧ 5 ≤ p.2 ∧ InDisc p.1 p.2 5 x y) ∨ (5 ≤ q.1 ∧ 5 ≤ q.2 ∧ InDisc q.1 q.2 5 x y)

/-- Two pictures of widths `w1`, `w2` and heights `h1`, `h2` side by side, their rows repeated to fill the height
`h`. -/
def sideBySide {α : Type} (w1 h1 h2 h : Nat) (f1 f2 : Nat → Nat → α) (x y : Nat) : α :=
  if x < w1 then f1 x (y * h1 / h) else f2 (x - w1) (y * h2 / h)

end TinyDIP.Stitch
