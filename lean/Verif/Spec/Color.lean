import Verif.Model.Color
import Verif.Spec.Grid

/-!
# Specification vocabulary: colours
-/

namespace TinyDIP.Color

open TinyDIP

/-- The three channel values as numbers. -/
def chan (p : RGB) : Fin 3 → Nat
  | 0 => p.c0.toNat
  | 1 => p.c1.toNat
  | 2 => p.c2.toNat

/-- The largest and the smallest channel value. -/
def brightest (p : RGB) : Nat := max (chan p 0) (max (chan p 1) (chan p 2))
def darkest (p : RGB) : Nat := min (chan p 0) (min (chan p 1) (chan p 2))

/-- `q` keeps the brightest and the darkest channels of `p`, up to the change `scale` of brightness,
and its other channel lies between them. -/
def KeepsExtremes (scale : Nat → Nat) (p q : RGB) : Prop :=
  ∀ i, (chan p i = brightest p → chan q i = scale (brightest p)) ∧
    (chan p i = darkest p → chan q i = scale (darkest p)) ∧
    scale (darkest p) ≤ chan q i ∧ chan q i ≤ scale (brightest p)

/-- Every pixel of `out` comes from the pixel of `im` at the same place by `op`. -/
def Pixelwise {α β : Type} (op : α → Res β) (im : Image α) (out : Image β) : Prop :=
  out.WF ∧ out.size = im.size ∧ ∀ idx v, im.at' idx = .ok v → out.at' idx = op v

end TinyDIP.Color
