import Verif.Model.Print
import Verif.Model.LinAlg

/-!
# Printing a matrix (linear_algebra.h)

The text of one element (`operator<<` of the element) is the parameter `el`.
-/

namespace TinyDIP.Print

open TinyDIP TinyDIP.Cli

variable {α : Type}

/-- linear_algebra.h 67-79, `operator<<` for matrices: what is written to the stream. -/
def insertMat (A : Mat α) (el : α → Str) : Res Str :=
  forUp A.rows (fun s r => do
    let s ← forUp A.cols (fun s c => do
      let v ← A.get r c
      .ok (s ++ el v ++ ['\t'])) s
    .ok (s ++ ['\n'])) []

end TinyDIP.Print
