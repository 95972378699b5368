import Verif.Model.Crash

/-!
# Specification of interrupted writing
-/

namespace TinyDIP.Crash

variable {B : Type}

/-- `d'` is `d` after `bytes` were written to `name` and the writing stopped somewhere: no other file
changed, and `name` has its old content or the first `k` bytes of the new one. -/
def Torn (d : Disk B) (name : List Char) (bytes : List B) (d' : Disk B) : Prop :=
  (∀ n, n ≠ name → d' n = d n) ∧ (d' name = d name ∨ ∃ k, d' name = some (bytes.take k))

/-- `d'` is `d` with the content of `name` replaced by `bytes`. -/
def Replaced (d : Disk B) (name : List Char) (bytes : List B) (d' : Disk B) : Prop :=
  (∀ n, n ≠ name → d' n = d n) ∧ d' name = some bytes

/-- The variable `v` belongs to the file `job.1`, and `job.2` is what a single call of the writer for its type
leaves there. -/
def SavedTo (fs : Files) (dir : List Char) (v : List Char × Stored) (job : List Char × List Byte) : Prop :=
  match v with
  | (name, .rgb im) => job.1 = dir ++ "/".toList ++ name ++ ".bmp".toList ∧
      ∃ fs', bmpWrite fs (dir ++ "/".toList ++ name) im = .ok (fs', 0) ∧ fs'.content job.1 = some job.2
  | (name, .double junk im) => job.1 = dir ++ "/".toList ++ name ++ ".dbmp".toList ∧
      ∃ fs', dblWrite fs junk (dir ++ "/".toList ++ name) im = .ok (fs', 0) ∧ fs'.content job.1 = some job.2
  | (name, .hsv junk im) => job.1 = dir ++ "/".toList ++ name ++ ".hsv".toList ∧
      ∃ fs', hsvWrite fs junk (dir ++ "/".toList ++ name) im = .ok (fs', 0) ∧ fs'.content job.1 = some job.2
  | (_, .other) => False

/-- The files when the program stopped while it wrote the files `jobs` one after the other: some are whole, the
next one has its old content or a beginning of the new one, the others have their old content, and no other file
changed. -/
def TornSeries (d : Disk B) (jobs : List (List Char × List B)) (d' : Disk B) : Prop :=
  (∀ n, n ∉ jobs.map Prod.fst → d' n = d n) ∧
  ∃ whole next later, jobs = whole ++ next ++ later ∧ next.length ≤ 1 ∧
    (∀ j ∈ whole, d' j.1 = some j.2) ∧
    (∀ j ∈ next, d' j.1 = d j.1 ∨ ∃ k, d' j.1 = some (j.2.take k)) ∧
    ∀ j ∈ later, d' j.1 = d j.1

/-- A variable `save_workspace` can save. -/
def Savable : List Char × Stored → Bool
  | (_, .other) => false
  | _ => true

end TinyDIP.Crash
