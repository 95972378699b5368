import Mathlib.Logic.Relation

/-!
# Progress reports of the windowed filter (image_operations.h 5810-5862)

Only the reporting is modelled here; the filtering is `windowedFilterOrd` (Model/Conv.lean). A report is the
number of processed pixels; the callback gets it divided by the number of pixels. Simplification: the
counters do not reach 2^64.
-/

namespace TinyDIP.Progress

/-- image_operations.h 5817: `report_step`. -/
def reportStep (total : Nat) : Nat := max 1 (total / 100)

/-- The variables of image_operations.h 5814-5815 and the reports made so far, oldest first. -/
structure Seq where
  processed : Nat
  next : Nat
  reports : List Nat

/-- image_operations.h 5845-5855 for one pixel, when pixels are processed one after the other. -/
def Seq.pixel (total : Nat) (s : Seq) : Seq :=
  let count := s.processed + 1
  if count ≥ s.next then
    { processed := count, next := count + reportStep total, reports := s.reports ++ [count] }
  else { s with processed := count }

/-- image_operations.h 5857-5862 with `std::execution::seq`: `n` pixels. -/
def Seq.run (total : Nat) : Nat → Seq
  | 0 => { processed := 0, next := 0, reports := [] }
  | n + 1 => (Seq.run total n).pixel total

/-- Where the task of one pixel stands: before the increment (image_operations.h 5846), after it with its
count, after the first comparison (5847), or finished. -/
inductive Task
  | before
  | counted (count : Nat)
  | passed (count : Nat)
  | finished
  deriving DecidableEq

/-- The state of a parallel run: the two atomics of image_operations.h 5814-5815, every value `next_report`
has had, the reports so far and the tasks. -/
structure Conf where
  processed : Nat
  next : Nat
  stored : List Nat
  reports : List Nat
  tasks : List Task

/-- image_operations.h 5814-5817: the state before the first pixel. -/
def Conf.init (total : Nat) : Conf :=
  { processed := 0, next := 0, stored := [0], reports := [], tasks := List.replicate total .before }

/-- image_operations.h 5845-5855: what one thread does next. The increment is atomic. The load of line 5847
is relaxed and outside the lock: it may give any value the variable has had. Lines 5848-5854 run under the
mutex, one task at a time, and see the latest value. -/
inductive Step (total : Nat) : Conf → Conf → Prop
  | count (s : Conf) (i : Nat) (h : s.tasks[i]? = some .before) :
      Step total s { s with processed := s.processed + 1, tasks := s.tasks.set i (.counted (s.processed + 1)) }
  | skip (s : Conf) (i c v : Nat) (h : s.tasks[i]? = some (.counted c)) (hv : v ∈ s.stored) (hc : ¬ c ≥ v) :
      Step total s { s with tasks := s.tasks.set i .finished }
  | pass (s : Conf) (i c v : Nat) (h : s.tasks[i]? = some (.counted c)) (hv : v ∈ s.stored) (hc : c ≥ v) :
      Step total s { s with tasks := s.tasks.set i (.passed c) }
  | report (s : Conf) (i c : Nat) (h : s.tasks[i]? = some (.passed c)) (hc : c ≥ s.next) :
      Step total s { s with
        next := c + reportStep total
        stored := (c + reportStep total) :: s.stored
        reports := s.reports ++ [c]
        tasks := s.tasks.set i .finished }
  | quiet (s : Conf) (i c : Nat) (h : s.tasks[i]? = some (.passed c)) (hc : ¬ c ≥ s.next) :
      Step total s { s with tasks := s.tasks.set i .finished }

/-- The states a parallel run of image_operations.h 5857-5862 can be in. -/
def Reachable (total : Nat) (s : Conf) : Prop := Relation.ReflTransGen (Step total) (Conf.init total) s

end TinyDIP.Progress
