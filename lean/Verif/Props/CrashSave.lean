import Verif.Lemmas.CrashSeries
import Verif.Props.Crash

/-!
# Property C198: the program stops while it saves the workspace
-/

namespace TinyDIP.Props

open TinyDIP TinyDIP.Cli Image Crash

/-- `save_workspace` with variables that belong to different files: the files that can remain when the program stops
are exactly those in which some variables (in the order of the memory store) are saved whole, the next one is
old or a beginning of the new content, and the rest is old; no other file changes. When the command is over, all
variables are saved. Missing: the old or the new workspace as a whole, see `C198_mixed_violation`. -/
theorem C198_save_partial (fs : Files) (dir : List Char) (vars : List (List Char × Stored))
    (jobs : List (List Char × List Byte)) (hjobs : List.Forall₂ (SavedTo fs dir) (vars.filter Savable) jobs)
    (hnd : (jobs.map Prod.fst).Nodup) :
    ∃ ops, saveOps fs dir vars = .ok ops ∧
      (∀ d, CanLeave fs.content ops d ↔ TornSeries fs.content jobs d) ∧
      ∀ d, Ends fs.content ops d ↔
        (∀ n, n ∉ jobs.map Prod.fst → d n = fs.content n) ∧ ∀ j ∈ jobs, d j.1 = some j.2 := by
  obtain ⟨ops, e, hs⟩ := saveOps_series vars jobs hjobs
  exact ⟨ops, e, fun d => series_iff hs hnd _ d, fun d => series_ends hs hnd _ d⟩

/-- Two pictures with a value between them that is not saved, in a directory that is empty. -/
theorem two_saved : ∃ first second : List Char × List Byte,
    List.Forall₂ (SavedTo ⟨fun _ => none, fun _ => true⟩ "d".toList)
      ([("a".toList, Stored.rgb (picture 3 2 fun x y => (⟨BitVec.ofNat 8 x, BitVec.ofNat 8 y, 7⟩ : RGB))),
        ("n".toList, .other),
        ("b".toList, .rgb (picture 2 2 fun _ _ => (⟨1, 2, 3⟩ : RGB)))].filter Savable) [first, second] ∧
    first.1 = "d/a.bmp".toList ∧ second.1 = "d/b.bmp".toList := by
  obtain ⟨_, f1, b1, -, h1, h2, -⟩ := C192_bmp_partial ⟨fun _ => none, fun _ => true⟩ "d/a".toList _ 3 2 _
    (picture_shows 3 2 fun x y => (⟨BitVec.ofNat 8 x, BitVec.ofNat 8 y, 7⟩ : RGB)) (by decide) (by decide) rfl
  obtain ⟨_, f2, b2, -, h3, h4, -⟩ := C192_bmp_partial ⟨fun _ => none, fun _ => true⟩ "d/b".toList _ 2 2 _
    (picture_shows 2 2 fun _ _ => (⟨1, 2, 3⟩ : RGB)) (by decide) (by decide) rfl
  exact ⟨("d/a.bmp".toList, b1), ("d/b.bmp".toList, b2),
    .cons ⟨rfl, f1, h1, h2⟩ (.cons ⟨rfl, f2, h3, h4⟩ .nil), rfl, rfl⟩

example : ∃ ops first second, saveOps ⟨fun _ => none, fun _ => true⟩ "d".toList
      [("a".toList, Stored.rgb (picture 3 2 fun x y => (⟨BitVec.ofNat 8 x, BitVec.ofNat 8 y, 7⟩ : RGB))),
        ("n".toList, .other),
        ("b".toList, .rgb (picture 2 2 fun _ _ => (⟨1, 2, 3⟩ : RGB)))] = .ok ops ∧
      ∀ d, CanLeave (fun _ => none) ops d ↔ TornSeries (fun _ => none) [first, second] d := by
  obtain ⟨j1, j2, h, e1, e2⟩ := two_saved
  obtain ⟨ops, h1, h2, -⟩ := C198_save_partial _ _ _ _ h (by rw [List.map_cons, List.map_cons, e1, e2]; decide)
  exact ⟨ops, j1, j2, h1, h2⟩

/-- The full property fails for every workspace of two savable variables or more: the program can stop when the
first is new and all others are old, a workspace that never existed. -/
theorem C198_mixed_violation (fs : Files) (dir : List Char) (vars : List (List Char × Stored))
    (first : List Char × List Byte) (others : List (List Char × List Byte))
    (hjobs : List.Forall₂ (SavedTo fs dir) (vars.filter Savable) (first :: others))
    (hnd : ((first :: others).map Prod.fst).Nodup) (second : List Char × List Byte) (h2 : second ∈ others)
    (hold1 : fs.content first.1 ≠ some first.2) (hold2 : fs.content second.1 ≠ some second.2) :
    ∃ ops d, saveOps fs dir vars = .ok ops ∧ CanLeave fs.content ops d ∧
      d first.1 = some first.2 ∧ d second.1 = fs.content second.1 ∧
      (∃ n, d n ≠ fs.content n) ∧ ¬ Ends fs.content ops d := by
  obtain ⟨ops, e, h3, h4⟩ := C198_save_partial fs dir vars _ hjobs hnd
  rw [List.map_cons, List.nodup_cons] at hnd
  have hne : ∀ j ∈ others, j.1 ≠ first.1 := fun j hj he => hnd.1 (he ▸ List.mem_map.2 ⟨j, hj, rfl⟩)
  have hd1 : put fs.content first.1 first.2 first.1 = some first.2 := if_pos rfl
  have hd2 : put fs.content first.1 first.2 second.1 = fs.content second.1 := if_neg (hne second h2)
  refine ⟨ops, put fs.content first.1 first.2, e, (h3 _).2 ⟨fun n hn => ?_, [first], [], others, rfl, by simp, ?_, by simp, ?_⟩,
    hd1, hd2, ⟨first.1, by rw [hd1]; exact fun h => hold1 h.symm⟩, fun h => ?_⟩
  · rw [put, if_neg fun he => hn (by simp [he])]
  · intro j hj
    rw [List.mem_singleton] at hj
    subst hj
    exact hd1
  · exact fun j hj => if_neg (hne j hj)
  · have := ((h4 _).1 h).2 second (by simp [h2])
    rw [hd2] at this
    exact hold2 this

example : ∃ ops d, saveOps ⟨fun _ => none, fun _ => true⟩ "d".toList
      [("a".toList, Stored.rgb (picture 3 2 fun x y => (⟨BitVec.ofNat 8 x, BitVec.ofNat 8 y, 7⟩ : RGB))),
        ("n".toList, .other),
        ("b".toList, .rgb (picture 2 2 fun _ _ => (⟨1, 2, 3⟩ : RGB)))] = .ok ops ∧
      CanLeave (fun _ => none) ops d ∧ (∃ n, d n ≠ none) ∧ ¬ Ends (fun _ => none) ops d := by
  obtain ⟨j1, j2, h, e1, e2⟩ := two_saved
  obtain ⟨ops, d, h1, h2, -, -, h3, h4⟩ := C198_mixed_violation _ _ _ j1 [j2] h
    (by rw [List.map_cons, List.map_cons, e1, e2]; decide) j2 (by simp) (by simp) (by simp)
  exact ⟨ops, d, h1, h2, h3, h4⟩

end TinyDIP.Props
