import Verif.Lemmas.Bundle
import Mathlib.Tactic.ByContra
import Mathlib.Data.List.Nodup

/-!
# C67 saving and loading a workspace
-/

namespace TinyDIP.Props

open TinyDIP.Cli

variable {P B : Type}

theorem savedAs_iff {p : Str × Val P} {ext : Str} : SavedAs p ext ↔ saveExt p.2.ty = some ext := by
  unfold SavedAs saveExt tyRgb tyDouble tyHsv
  have h1 : extBmp = ".bmp".toList := by decide
  have h2 : extDbmp = ".dbmp".toList := by decide
  have h3 : extHsv = ".hsv".toList := by decide
  rw [← h1, ← h2, ← h3]
  constructor
  · rintro (⟨h, rfl⟩ | ⟨h, rfl⟩ | ⟨h, rfl⟩) <;> rw [h] <;> simp
  · intro h
    split_ifs at h with a b d
    · exact .inl ⟨a, (Option.some.inj h).symm⟩
    · exact .inr (.inl ⟨b, (Option.some.inj h).symm⟩)
    · exact .inr (.inr ⟨d, (Option.some.inj h).symm⟩)

theorem loadExt_iff {ext : Str} : LoadExt ext ↔ isLoadable ext = true := by
  have h1 : extBmp = ".bmp".toList := by decide
  have h2 : extDbmp = ".dbmp".toList := by decide
  have h3 : extHsv = ".hsv".toList := by decide
  have h4 : extCsv = ".csv".toList := by decide
  have h5 : extPpm = ".ppm".toList := by decide
  unfold LoadExt isLoadable
  rw [h1, h2, h3, h4, h5]
  simp [or_assoc]

theorem loadExt_ne {ext : Str} (h : LoadExt ext) : ext ≠ [] := by
  rintro rfl
  revert h
  unfold LoadExt
  decide

/-- Every workspace with different non-empty names without `/` for its saveable variables, every order in which it is
written, every earlier content of the directory, every order in which the directory is read and every workspace that
is loaded into: all saveable variables have their values again, and a variable whose name belongs to no file of the
directory keeps its value. The formats must return what was written, the other image files of the directory must be
readable, and none of them may have the name of a saved variable with another extension. Missing: other names and
files of earlier sessions that are in the way, see the violations. -/
theorem C67_save_load_partial (c : Codec P B) (vars vars' : List (Str × Val P)) (hperm : vars'.Perm vars)
    (hnd : (vars.map Prod.fst).Nodup) (dir : Workspace B) (hdir : (dir.store.map Prod.fst).Nodup)
    (hname : ∀ p ∈ vars, ∀ ext, SavedAs p ext → Means p.1 p.1 ∧ p.1 ≠ [] ∧ '/' ∉ p.1)
    (hcodec : ∀ p ∈ vars, ∀ ext, SavedAs p ext → c.dec ext (c.enc p.2) = some p.2)
    (hstale : ∀ f b stem ext, (f, b) ∈ dir.store → StemExt f stem ext → LoadExt ext →
      (∃ v, c.dec ext b = some v) ∧
      ∀ p ∈ vars, ∀ ext', SavedAs p ext' → Means stem p.1 → f = p.1 ++ ext')
    (entries : List (Str × B)) (hentries : entries.Perm (saveBundle c vars' dir).store)
    (ws0 : Workspace (Val P)) :
    ∃ ws, loadBundle c entries ws0 = some ws ∧
      (∀ p ∈ vars, ∀ ext, SavedAs p ext → ws.retrieveAny p.1 = some p.2) ∧
      ∀ k, (∀ f b stem ext, (f, b) ∈ entries → StemExt f stem ext → LoadExt ext → ¬ Means stem k) →
        ws.find k = ws0.find k := by
  have hfile : ∀ p ∈ vars, ∀ f, fileOf p = some f → ∃ ext, SavedAs p ext ∧ f = p.1 ++ ext ∧ StemExt f p.1 ext := by
    intro p hp f hf
    unfold fileOf at hf
    cases hs : saveExt p.2.ty with
    | none => simp [hs] at hf
    | some ext =>
      rw [hs] at hf
      simp only at hf
      split at hf
      · simp at hf
      · have hf := (Option.some.inj hf).symm
        have hsa := savedAs_iff.2 hs
        exact ⟨ext, hsa, hf, hf, (hname p hp ext hsa).2.1, saveExt_dot hs⟩
  have hfile' : ∀ p ∈ vars, ∀ ext, SavedAs p ext → fileOf p = some (p.1 ++ ext) := by
    intro p hp ext hs
    have hno := (hname p hp ext hs).2.2
    unfold fileOf
    rw [savedAs_iff.1 hs]
    simp [hno]
  have huniq : ∀ p ∈ vars', ∀ q ∈ vars', ∀ f, fileOf p = some f → fileOf q = some f → p = q := by
    intro p hp q hq f hpf hqf
    rw [hperm.mem_iff] at hp hq
    obtain ⟨e1, _, _, h1⟩ := hfile p hp f hpf
    obtain ⟨e2, _, _, h2⟩ := hfile q hq f hqf
    have := (splitExt_of h1).symm.trans (splitExt_of h2)
    have hfst : p.1 = q.1 := (Prod.mk.inj this).1
    exact List.inj_on_of_nodup_map hnd hp hq hfst
  have hnodup := saveBundle_nodup c vars' dir hdir
  have hmem : ∀ f b, (f, b) ∈ entries ↔ (saveBundle c vars' dir).find f = some b := fun f b => by
    rw [hentries.mem_iff, find_some_iff _ hnodup]
  have hfind := saveBundle_find c vars' dir huniq
  -- every loadable entry can be read, and those with the name of a variable give its value
  have hent : ∀ f b, (f, b) ∈ entries → isLoadable (splitExt f).2 = true →
      (∃ v, c.dec (splitExt f).2 b = some v) ∧
      ∀ p ∈ vars, ∀ ext, SavedAs p ext → sanitize (splitExt f).1 = p.1 → c.dec (splitExt f).2 b = some p.2 := by
    intro f b hfb hl
    rw [hmem] at hfb
    by_cases hex : ∃ q ∈ vars', fileOf q = some f
    · obtain ⟨q, hq, hqf⟩ := hex
      rw [(hfind f).1 q hq hqf] at hfb
      cases Option.some.inj hfb
      have hq' := hperm.mem_iff.1 hq
      obtain ⟨e, hs, rfl, hse⟩ := hfile q hq' f hqf
      rw [splitExt_of hse]
      have hd := hcodec q hq' e hs
      refine ⟨⟨_, hd⟩, fun p hp ext hps hsan => ?_⟩
      simp only at hsan
      rw [means_iff.1 (hname q hq' e hs).1] at hsan
      have : q = p := List.inj_on_of_nodup_map hnd hq' hp hsan
      rw [← this]
      exact hd
    · have hno : ∀ q ∈ vars', fileOf q ≠ some f := fun q hq h => hex ⟨q, hq, h⟩
      rw [(hfind f).2 hno] at hfb
      rw [find_some_iff _ hdir] at hfb
      have hle := loadExt_iff.2 hl
      have hse := splitExt_stemExt (f := f) (stem := (splitExt f).1) (ext := (splitExt f).2) rfl (loadExt_ne hle)
      obtain ⟨h1, h2⟩ := hstale f b _ _ hfb hse hle
      refine ⟨h1, fun p hp ext hps hsan => ?_⟩
      have hf := h2 p hp ext hps (means_iff.2 hsan)
      exact absurd (by rw [hf]; exact hfile' p hp ext hps) (hno p (hperm.mem_iff.2 hp))
  obtain ⟨ws, e, h1, h2⟩ := loadBundle_spec c entries ws0 fun f b h hl => (hent f b h hl).1
  refine ⟨ws, e, fun p hp ext hs => ?_, fun k hk => ?_⟩
  · have hm := (hname p hp ext hs).1
    have hsan := means_iff.1 hm
    rw [Workspace.retrieveAny, hsan]
    refine h2 p.1 p.2 (fun f b hfb hl hsk => (hent f b hfb hl).2 p hp ext hs hsk) ?_
    have hf := hfile' p hp ext hs
    obtain ⟨e', hs', _, hse⟩ := hfile p hp _ hf
    have he : e' = ext := by
      rw [savedAs_iff] at hs hs'
      rw [hs] at hs'
      exact (Option.some.inj hs').symm
    subst he
    refine ⟨p.1 ++ e', c.enc p.2, (hmem _ _).2 ((hfind _).1 p (hperm.mem_iff.2 hp) hf), ?_, ?_⟩
    · rw [splitExt_of hse]; exact saveExt_loadable (savedAs_iff.1 hs)
    · rw [splitExt_of hse]; exact hsan
  · refine h1 k fun f b hfb hl hsk => ?_
    have hle := loadExt_iff.2 hl
    exact hk f b _ _ hfb (splitExt_stemExt rfl (loadExt_ne hle)) hle (means_iff.2 hsk)

/-- A format for the examples: a file holds the value; reading a `.csv` file fails. -/
def exampleCodec : Codec Nat (Val Nat) where
  enc v := v
  dec ext v := if ext = ".csv".toList then none else some v

/-- Two images for the examples. -/
def exampleRgb : Val Nat := .atom (.image (.scalar 10)) 1
def exampleHsv : Val Nat := .atom (.image (.scalar 11)) 2

/-- The property fails when an earlier file of the directory has the name of a variable and another
extension: with one order of the directory the older image is loaded instead. -/
theorem C67_stale_violation :
    ∃ (dir : Workspace (Val Nat)) (entries : List (Str × Val Nat)),
      entries.Perm (saveBundle exampleCodec [("a".toList, exampleRgb)] dir).store ∧
      ((loadBundle exampleCodec entries ⟨[]⟩).map fun ws => (ws.find "a".toList).map Val.ty) =
        some (some exampleHsv.ty) := by
  refine ⟨⟨[("a.hsv".toList, exampleHsv)]⟩, [("a.bmp".toList, exampleRgb), ("a.hsv".toList, exampleHsv)], ?_, ?_⟩
  · exact List.Perm.refl _
  · decide +kernel

/-- The property fails when an earlier image file of the directory cannot be read: loading ends with an
exception. -/
theorem C67_unreadable_violation :
    ∃ (dir : Workspace (Val Nat)) (entries : List (Str × Val Nat)),
      entries.Perm (saveBundle exampleCodec [("a".toList, exampleRgb)] dir).store ∧
      (loadBundle exampleCodec entries ⟨[]⟩).isNone = true := by
  refine ⟨⟨[("b.csv".toList, exampleHsv)]⟩, [("b.csv".toList, exampleHsv), ("a.bmp".toList, exampleRgb)], ?_, ?_⟩
  · exact List.Perm.swap _ _ _
  · decide +kernel

/-- The property fails for a variable with an empty name (its file `.bmp` has no extension) and for a
name with a slash. -/
theorem C67_name_violation (n : Str) (hn : n = [] ∨ n = "x/y".toList) :
    ((loadBundle exampleCodec (saveBundle exampleCodec [(n, exampleRgb)] ⟨[]⟩).store ⟨[]⟩).map
      fun ws => (ws.find n).map Val.ty) = some none := by
  rcases hn with rfl | rfl <;> decide +kernel

/-- The hypotheses of the theorem are met by a workspace with two images and a number and a directory
with an older file of one of them, an image of another name and a file that is not an image. -/
example : ∃ (vars : List (Str × Val Nat)) (dir : Workspace (Val Nat)),
    vars.length = 3 ∧ dir.store.length = 3 ∧ (vars.map Prod.fst).Nodup ∧ (dir.store.map Prod.fst).Nodup ∧
    (∀ p ∈ vars, ∀ ext, SavedAs p ext → Means p.1 p.1 ∧ p.1 ≠ [] ∧ '/' ∉ p.1) ∧
    (∀ p ∈ vars, ∀ ext, SavedAs p ext → exampleCodec.dec ext (exampleCodec.enc p.2) = some p.2) ∧
    ∀ f b stem ext, (f, b) ∈ dir.store → StemExt f stem ext → LoadExt ext →
      (∃ v, exampleCodec.dec ext b = some v) ∧
      ∀ p ∈ vars, ∀ ext', SavedAs p ext' → Means stem p.1 → f = p.1 ++ ext' := by
  refine ⟨[("a".toList, exampleRgb), ("b".toList, exampleHsv), ("n".toList, .atom (.num .double) 5)],
    ⟨[("a.bmp".toList, .atom (.image (.scalar 10)) 9), ("old.hsv".toList, exampleHsv), ("b.txt".toList, exampleHsv)]⟩,
    rfl, rfl, by decide +kernel, by decide +kernel, ?_, ?_, ?_⟩
  · intro p hp ext hs
    simp only [List.mem_cons, List.not_mem_nil, or_false] at hp
    rcases hp with rfl | rfl | rfl
    · exact ⟨means_iff.2 (by decide +kernel), by decide +kernel, by decide +kernel⟩
    · exact ⟨means_iff.2 (by decide +kernel), by decide +kernel, by decide +kernel⟩
    · exact ⟨means_iff.2 (by decide +kernel), by decide +kernel, by decide +kernel⟩
  · intro p _ ext hs
    have : ext ≠ ".csv".toList := by
      rcases hs with ⟨_, rfl⟩ | ⟨_, rfl⟩ | ⟨_, rfl⟩ <;> decide +kernel
    exact if_neg this
  · intro f b stem ext hfb hse hle
    have hsp := splitExt_of hse
    simp only [List.mem_cons, List.not_mem_nil, or_false, Prod.mk.injEq] at hfb
    rcases hfb with ⟨rfl, rfl⟩ | ⟨rfl, rfl⟩ | ⟨rfl, rfl⟩
    · rw [show splitExt "a.bmp".toList = ("a".toList, ".bmp".toList) by decide +kernel] at hsp
      obtain ⟨rfl, rfl⟩ := Prod.mk.inj hsp
      refine ⟨⟨_, by simp [exampleCodec]; rfl⟩, fun p hp ext' hs hm => ?_⟩
      have hpa : p.1 = "a".toList := by
        rw [← means_iff.1 hm]; decide +kernel
      simp only [List.mem_cons, List.not_mem_nil, or_false] at hp
      rcases hp with rfl | rfl | rfl
      · rcases hs with ⟨_, rfl⟩ | ⟨h, _⟩ | ⟨h, _⟩
        · decide +kernel
        · exact absurd h (by decide +kernel)
        · exact absurd h (by decide +kernel)
      · exact absurd hpa (by decide +kernel)
      · exact absurd hpa (by decide +kernel)
    · rw [show splitExt "old.hsv".toList = ("old".toList, ".hsv".toList) by decide +kernel] at hsp
      obtain ⟨rfl, rfl⟩ := Prod.mk.inj hsp
      refine ⟨⟨_, by simp [exampleCodec]; rfl⟩, fun p hp ext' hs hm => ?_⟩
      have hpa : p.1 = "old".toList := by
        rw [← means_iff.1 hm]; decide +kernel
      simp only [List.mem_cons, List.not_mem_nil, or_false] at hp
      rcases hp with rfl | rfl | rfl <;> exact absurd hpa (by decide +kernel)
    · rw [show splitExt "b.txt".toList = ("b".toList, ".txt".toList) by decide +kernel] at hsp
      obtain ⟨rfl, rfl⟩ := Prod.mk.inj hsp
      exact absurd (loadExt_iff.1 hle) (by decide +kernel)

end TinyDIP.Props
