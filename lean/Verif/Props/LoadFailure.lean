import Verif.Props.Bundle

/-!
# Property C200: loading a workspace when a file cannot be read
-/

namespace TinyDIP.Props

open TinyDIP.Cli

variable {P B : Type}

theorem loadEntries_none (c : Codec P B) (entries : List (Str × B)) (ws : Workspace (Val P)) :
    loadBundle c entries ws = if (loadEntries c entries ws).2 then some (loadEntries c entries ws).1 else none := by
  induction entries generalizing ws with
  | nil => rfl
  | cons e es ih =>
    obtain ⟨f, b⟩ := e
    unfold loadBundle loadEntries
    split
    · split
      · exact ih _
      · rfl
    · exact ih _

theorem loadEntries_append (c : Codec P B) (before after : List (Str × B)) (ws ws' : Workspace (Val P))
    (h : loadBundle c before ws = some ws') : loadEntries c (before ++ after) ws = loadEntries c after ws' := by
  induction before generalizing ws with
  | nil =>
    cases h
    rfl
  | cons e es ih =>
    obtain ⟨f, b⟩ := e
    unfold loadBundle at h
    rw [List.cons_append, loadEntries]
    split at h
    · rename_i hl
      rw [if_pos hl]
      split at h
      · exact ih _ h
      · cases h
    · rename_i hl
      rw [if_neg hl]
      exact ih _ h

theorem loadEntries_find (c : Codec P B) (entries : List (Str × B)) (ws : Workspace (Val P)) (k : Str)
    (hk : ∀ f b, (f, b) ∈ entries → isLoadable (splitExt f).2 = true → sanitize (splitExt f).1 ≠ k) :
    (loadEntries c entries ws).1.find k = ws.find k := by
  induction entries generalizing ws with
  | nil => rfl
  | cons e es ih =>
    obtain ⟨f, b⟩ := e
    have ih' := fun ws => ih ws fun f b h => hk f b (by simp [h])
    unfold loadEntries
    split
    · rename_i hl
      split
      · rw [ih', Workspace.find_put, if_neg fun h => hk f b (by simp) hl h.symm]
      · rfl
    · exact ih' _

/-- The command succeeds exactly when every image file of the directory can be read, and then it does what C67 says. -/
theorem C200_succeeds (c : Codec P B) (entries : List (Str × B)) (ws0 : Workspace (Val P)) :
    ((loadEntries c entries ws0).2 = true ↔
      ∀ f b stem ext, (f, b) ∈ entries → StemExt f stem ext → LoadExt ext → ∃ v, c.dec ext b = some v) ∧
    ((loadEntries c entries ws0).2 = true → loadBundle c entries ws0 = some (loadEntries c entries ws0).1) := by
  refine ⟨?_, fun h => by rw [loadEntries_none, if_pos h]⟩
  induction entries generalizing ws0 with
  | nil => simp [loadEntries]
  | cons e es ih =>
    obtain ⟨g, d⟩ := e
    unfold loadEntries
    by_cases hl : isLoadable (splitExt g).2 = true
    · rw [if_pos hl]
      have hle := loadExt_iff.2 hl
      cases hd : c.dec (splitExt g).2 d with
      | none =>
        simp only [Bool.false_eq_true, false_iff]
        intro h
        obtain ⟨v, hv⟩ := h g d (splitExt g).1 (splitExt g).2 (by simp) (splitExt_stemExt rfl (loadExt_ne hle)) hle
        rw [hd] at hv
        cases hv
      | some v =>
        simp only
        rw [ih]
        refine ⟨fun h f b stem ext hm h1 h2 => ?_, fun h f b stem ext hm => h f b stem ext (by simp [hm])⟩
        rcases List.mem_cons.1 hm with e | hm
        · cases e
          rw [splitExt_of h1] at hd
          exact ⟨v, hd⟩
        · exact h f b stem ext hm h1 h2
    · rw [if_neg hl, ih]
      refine ⟨fun h f b stem ext hm h1 h2 => ?_, fun h f b stem ext hm => h f b stem ext (by simp [hm])⟩
      rcases List.mem_cons.1 hm with e | hm
      · cases e
        rw [splitExt_of h1] at hl
        exact absurd (loadExt_iff.1 h2) hl
      · exact h f b stem ext hm h1 h2

/-- Whether the command succeeds or a reader throws: a variable whose name belongs to no image file of the directory
keeps its value, and keeps existing or missing. -/
theorem C200_bystanders (c : Codec P B) (entries : List (Str × B)) (ws0 : Workspace (Val P)) (k : Str)
    (hk : ∀ f b stem ext, (f, b) ∈ entries → StemExt f stem ext → LoadExt ext → ¬ Means stem k) :
    (loadEntries c entries ws0).1.find k = ws0.find k :=
  loadEntries_find c entries ws0 k fun f b hm hl e =>
    have hle := loadExt_iff.2 hl
    hk f b _ _ hm (splitExt_stemExt rfl (loadExt_ne hle)) hle (means_iff.2 e)

/-- When a reader throws at the file `f`, the files visited before it are loaded and the files after it are not: a
variable has the value it has when the directory holds the files before `f` only. Missing: a failed command that
leaves the workspace as it was, see `C200_violation`. -/
theorem C200_stops_partial (c : Codec P B) (before after : List (Str × B)) (f stem ext : Str) (b : B)
    (ws0 : Workspace (Val P))
    (hread : ∀ f b stem ext, (f, b) ∈ before → StemExt f stem ext → LoadExt ext → ∃ v, c.dec ext b = some v)
    (hf : StemExt f stem ext) (he : LoadExt ext) (hb : c.dec ext b = none) :
    loadEntries c (before ++ (f, b) :: after) ws0 = ((loadEntries c before ws0).1, false) ∧
    (loadEntries c before ws0).2 = true ∧
    ∀ k, (∀ f b stem ext, (f, b) ∈ before → StemExt f stem ext → LoadExt ext → ¬ Means stem k) →
      (loadEntries c (before ++ (f, b) :: after) ws0).1.find k = ws0.find k := by
  have h2 := (C200_succeeds c before ws0).1.2 hread
  have h1 : loadEntries c (before ++ (f, b) :: after) ws0 = ((loadEntries c before ws0).1, false) := by
    rw [loadEntries_append c before _ ws0 _ ((C200_succeeds c before ws0).2 h2), loadEntries, splitExt_of hf]
    simp only
    rw [if_pos (loadExt_iff.1 he), hb]
  exact ⟨h1, h2, fun k hk => by rw [h1]; exact C200_bystanders c before ws0 k hk⟩

/-- The full property fails: one unreadable file of the directory makes the command fail after it has replaced a
variable, and whether it has depends on the order in which the file system lists the directory. -/
theorem C200_violation :
    ∃ (entries entries' : List (Str × Val Nat)) (ws0 : Workspace (Val Nat)), entries'.Perm entries ∧
      (loadEntries exampleCodec entries ws0).2 = false ∧ (loadEntries exampleCodec entries' ws0).2 = false ∧
      ((loadEntries exampleCodec entries ws0).1.find "a".toList).map Val.ty = some exampleRgb.ty ∧
      ((loadEntries exampleCodec entries' ws0).1.find "a".toList).map Val.ty = some exampleHsv.ty ∧
      (ws0.find "a".toList).map Val.ty = some exampleHsv.ty := by
  refine ⟨[("a.bmp".toList, exampleRgb), ("b.csv".toList, exampleHsv)],
    [("b.csv".toList, exampleHsv), ("a.bmp".toList, exampleRgb)], ⟨[("a".toList, exampleHsv)]⟩, List.Perm.swap _ _ _, ?_⟩
  decide +kernel

/-- A directory with a picture, a file that is no picture, a file that cannot be read and another picture. -/
example := C200_stops_partial exampleCodec [("a.bmp".toList, exampleRgb), ("n.txt".toList, exampleHsv)]
  [("d.hsv".toList, exampleHsv)] "b.csv".toList "b".toList ".csv".toList exampleHsv ⟨[("d".toList, exampleRgb)]⟩
  (by
    intro f b stem ext hm hs hl
    have hsp := splitExt_of hs
    simp only [List.mem_cons, List.not_mem_nil, or_false, Prod.mk.injEq] at hm
    rcases hm with ⟨rfl, rfl⟩ | ⟨rfl, rfl⟩
    · rw [show splitExt "a.bmp".toList = ("a".toList, ".bmp".toList) by decide +kernel] at hsp
      obtain ⟨rfl, rfl⟩ := Prod.mk.inj hsp
      exact ⟨_, rfl⟩
    · rw [show splitExt "n.txt".toList = ("n".toList, ".txt".toList) by decide +kernel] at hsp
      obtain ⟨rfl, rfl⟩ := Prod.mk.inj hsp
      exact absurd (loadExt_iff.1 hl) (by decide +kernel))
  ⟨by decide +kernel, by decide +kernel, "csv".toList, by decide +kernel, by decide +kernel⟩
  (by unfold LoadExt; decide +kernel) rfl

/-- In it the variable `e` is a bystander, and the picture of the first file is loaded. -/
example : ((loadEntries exampleCodec [("a.bmp".toList, exampleRgb), ("b.csv".toList, exampleHsv)]
      ⟨[("e".toList, exampleHsv)]⟩).1.find "e".toList).map Val.ty = some exampleHsv.ty ∧
    ((loadEntries exampleCodec [("a.bmp".toList, exampleRgb), ("b.csv".toList, exampleHsv)]
      ⟨[("e".toList, exampleHsv)]⟩).1.find "a".toList).map Val.ty = some exampleRgb.ty := by
  decide +kernel

end TinyDIP.Props
