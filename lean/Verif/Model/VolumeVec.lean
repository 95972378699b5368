import Verif.Model.Volume

/-!
# Sequences of volumes (cube_operations.h 195-203 and 261-270)
-/

namespace TinyDIP.Vol

variable {α : Type}

/-- basic_functions.h 1173-1200: the elements at the position that is reached, one of each of the further containers;
reading past the end of one is undefined. -/
def heads : List (List (Vol α)) → Res (List (Vol α))
  | [] => .ok []
  | [] :: _ => .ub
  | (v :: _) :: rest => do
    let hs ← heads rest
    .ok (v :: hs)

/-- cube_operations.h 195-203 `plus` of vectors of volumes; the pack `inputs` is the list `rest`. -/
def plusVec (op : α → α → α) : List (Vol α) → List (List (Vol α)) → Res (List (Vol α))
  | [], _ => .ok []
  | v :: vs, rest => do
    let hs ← heads rest
    let r ← plus op (v :: hs)
    let rs ← plusVec op vs (rest.map List.tail)
    .ok (r :: rs)

/-- cube_operations.h 261-270 `divides` of two vectors of volumes: the lengths are only asserted (the assertion is not part
of a release build). -/
def dividesVec (op : α → α → α) : List (Vol α) → List (Vol α) → Res (List (Vol α))
  | [], _ => .ok []
  | _ :: _, [] => .ub
  | a :: as, b :: bs => do
    let r ← combine op a b
    let rs ← dividesVec op as bs
    .ok (r :: rs)

end TinyDIP.Vol
