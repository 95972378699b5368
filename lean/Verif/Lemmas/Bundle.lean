import Verif.Lemmas.Cli
import Verif.Model.CliHandlers
import Mathlib.Tactic.SplitIfs

namespace TinyDIP.Cli

variable {P B : Type}

theorem splitExt_of {f stem ext : Str} (h : StemExt f stem ext) : splitExt f = (stem, ext) := by
  obtain ⟨rfl, hne, e, rfl, he⟩ := h
  have hrev : (stem ++ '.' :: e).reverse = e.reverse ++ '.' :: stem.reverse := by simp
  have hall : ∀ c ∈ e.reverse, (c != '.') = true := by
    intro c hc
    rw [List.mem_reverse] at hc
    simp only [bne_iff_ne, ne_eq]
    rintro rfl
    exact he hc
  have ht : (stem ++ '.' :: e).reverse.takeWhile (· != '.') = e.reverse := by
    rw [hrev, List.takeWhile_append_of_pos hall]
    simp
  have hd : (stem ++ '.' :: e).reverse.dropWhile (· != '.') = '.' :: stem.reverse := by
    rw [hrev, List.dropWhile_append_of_pos hall]
    simp
  unfold splitExt
  rw [hd, ht]
  cases hs : stem.reverse with
  | nil => exact absurd (by simpa using hs) hne
  | cons a l =>
    simp only [List.reverse_reverse]
    rw [← hs, List.reverse_reverse]

theorem splitExt_stemExt {f stem ext : Str} (h : splitExt f = (stem, ext)) (he : ext ≠ []) : StemExt f stem ext := by
  unfold splitExt at h
  have hsplit := List.takeWhile_append_dropWhile (p := (· != '.')) (l := f.reverse)
  have hnd : '.' ∉ f.reverse.takeWhile (· != '.') := by
    intro hm
    have h1 : ∀ l : Str, ∀ c ∈ l.takeWhile (· != '.'), c ≠ '.' := by
      intro l
      induction l with
      | nil => simp
      | cons a l ih =>
        intro c hc
        rw [List.takeWhile_cons] at hc
        split at hc
        · rename_i ha
          rcases List.mem_cons.1 hc with rfl | hc
          · simpa using ha
          · exact ih c hc
        · simp at hc
    exact h1 _ _ hm rfl
  generalize f.reverse.takeWhile (· != '.') = t at h hsplit hnd
  cases hd : f.reverse.dropWhile (· != '.') with
  | nil => rw [hd] at h; simp at h; exact absurd h.2.symm (by simpa using he)
  | cons a l =>
    have ha : a = '.' := by
      have := List.head?_dropWhile_not (p := (· != '.')) (l := f.reverse)
      rw [hd] at this
      simpa using this
    cases l with
    | nil => rw [hd] at h; simp at h; exact absurd h.2.symm (by simpa using he)
    | cons b l =>
      rw [hd] at h hsplit
      simp only [Prod.mk.injEq] at h
      obtain ⟨h1, h2⟩ := h
      refine ⟨?_, by rw [← h1]; simp, t.reverse, h2.symm, by simpa using hnd⟩
      rw [← h1, ← h2, ← List.reverse_reverse f, ← hsplit, ha]
      simp

theorem saveExt_cases {t : Ty} {ext : Str} (h : saveExt t = some ext) :
    ext = extBmp ∨ ext = extDbmp ∨ ext = extHsv := by
  unfold saveExt at h
  split_ifs at h <;> simp_all

theorem saveExt_dot {t : Ty} {ext : Str} (h : saveExt t = some ext) : ∃ e, ext = '.' :: e ∧ '.' ∉ e := by
  rcases saveExt_cases h with rfl | rfl | rfl
  · exact ⟨_, rfl, by decide⟩
  · exact ⟨_, rfl, by decide⟩
  · exact ⟨_, rfl, by decide⟩

theorem saveExt_loadable {t : Ty} {ext : Str} (h : saveExt t = some ext) : isLoadable ext = true := by
  rcases saveExt_cases h with rfl | rfl | rfl <;> decide

theorem assign_nodup {V : Type} (w : Workspace V) (k : Str) (v : V) (h : (w.store.map Prod.fst).Nodup) :
    ((w.assign k v).store.map Prod.fst).Nodup := by
  simp only [Workspace.assign, Workspace.erase, List.map_cons, List.nodup_cons]
  constructor
  · simp
  · exact h.sublist (List.filter_sublist.map _)

theorem find_some_iff {V : Type} (w : Workspace V) (h : (w.store.map Prod.fst).Nodup) (k : Str) (v : V) :
    w.find k = some v ↔ (k, v) ∈ w.store := by
  obtain ⟨l⟩ := w
  simp only [Workspace.find] at h ⊢
  induction l with
  | nil => simp
  | cons p l ih =>
    simp only [List.map_cons, List.nodup_cons] at h
    rw [List.find?_cons]
    by_cases hk : p.1 = k
    · simp only [hk, beq_self_eq_true, Option.map_some, Option.some.injEq, List.mem_cons]
      constructor
      · rintro rfl; left; rw [← hk]
      · rintro (e | hm)
        · rw [← e]
        · exact absurd (List.mem_map.2 ⟨_, hm, rfl⟩) (hk ▸ h.1)
    · have : (p.1 == k) = false := by simpa using hk
      simp only [this, ih h.2, List.mem_cons]
      constructor
      · exact .inr
      · rintro (e | hm)
        · exact absurd (by rw [← e]) hk
        · exact hm

theorem saveBundle_nodup (c : Codec P B) (vars : List (Str × Val P)) (dir : Workspace B)
    (h : (dir.store.map Prod.fst).Nodup) : ((saveBundle c vars dir).store.map Prod.fst).Nodup := by
  induction vars generalizing dir with
  | nil => exact h
  | cons p vars ih =>
    refine ih _ ?_
    simp only
    split
    · split
      · exact h
      · exact assign_nodup _ _ _ h
    · exact h

/-- The file that a variable is saved to. -/
def fileOf (p : Str × Val P) : Option Str :=
  match saveExt p.2.ty with
  | some ext => if p.1.contains '/' then none else some (p.1 ++ ext)
  | none => none

/-- Contents of the directory after saving. -/
theorem saveBundle_find (c : Codec P B) (vars : List (Str × Val P)) (dir : Workspace B)
    (hu : ∀ p ∈ vars, ∀ q ∈ vars, ∀ f, fileOf p = some f → fileOf q = some f → p = q) (f : Str) :
    (∀ p ∈ vars, fileOf p = some f → (saveBundle c vars dir).find f = some (c.enc p.2)) ∧
    ((∀ p ∈ vars, fileOf p ≠ some f) → (saveBundle c vars dir).find f = dir.find f) := by
  induction vars generalizing dir with
  | nil => exact ⟨by simp, fun _ => rfl⟩
  | cons p vars ih =>
    have ih' := ih (match saveExt p.2.ty with
      | some ext => if p.1.contains '/' then dir else dir.assign (p.1 ++ ext) (c.enc p.2)
      | none => dir) (fun a ha b hb => hu a (by simp [ha]) b (by simp [hb]))
    have hstep : (match saveExt p.2.ty with
        | some ext => if p.1.contains '/' then dir else dir.assign (p.1 ++ ext) (c.enc p.2)
        | none => dir).find f = if fileOf p = some f then some (c.enc p.2) else dir.find f := by
      unfold fileOf
      cases saveExt p.2.ty with
      | none => simp
      | some ext =>
        simp only
        split
        · simp
        · rw [Workspace.find_assign]
          simp [eq_comm]
    rw [hstep] at ih'
    constructor
    · intro q hq hf
      by_cases hex : ∃ r ∈ vars, fileOf r = some f
      · obtain ⟨r, hr, hrf⟩ := hex
        have := hu q hq r (by simp [hr]) f hf hrf
        subst this
        exact ih'.1 _ hr hrf
      · have hqp : q = p := by
          rcases List.mem_cons.1 hq with h | h
          · exact h
          · exact absurd ⟨q, h, hf⟩ hex
        subst hqp
        have := ih'.2 fun r hr hrf => hex ⟨r, hr, hrf⟩
        rw [if_pos hf] at this
        exact this
    · intro hno
      have := ih'.2 fun r hr => hno r (by simp [hr])
      rw [if_neg (hno p (by simp))] at this
      exact this

/-- Reading a directory: all readable entries with different names for the ones that matter. -/
theorem loadBundle_spec (c : Codec P B) : ∀ (entries : List (Str × B)) (ws0 : Workspace (Val P)),
    (∀ f b, (f, b) ∈ entries → isLoadable (splitExt f).2 = true → ∃ v, c.dec (splitExt f).2 b = some v) →
    ∃ ws, loadBundle c entries ws0 = some ws ∧
      (∀ k, (∀ f b, (f, b) ∈ entries → isLoadable (splitExt f).2 = true → sanitize (splitExt f).1 ≠ k) →
        ws.find k = ws0.find k) ∧
      ∀ k v, (∀ f b, (f, b) ∈ entries → isLoadable (splitExt f).2 = true → sanitize (splitExt f).1 = k →
          c.dec (splitExt f).2 b = some v) →
        (∃ f b, (f, b) ∈ entries ∧ isLoadable (splitExt f).2 = true ∧ sanitize (splitExt f).1 = k) →
        ws.find k = some v
  | [], ws0, _ => ⟨ws0, rfl, fun _ _ => rfl, fun _ _ _ ⟨_, _, h, _⟩ => absurd h (by simp)⟩
  | (f, b) :: es, ws0, hdec => by
    by_cases hl : isLoadable (splitExt f).2 = true
    · obtain ⟨v0, hv0⟩ := hdec f b (by simp) hl
      obtain ⟨ws, e, h1, h2⟩ := loadBundle_spec c es (ws0.put (splitExt f).1 v0) fun g d hg => hdec g d (by simp [hg])
      refine ⟨ws, by rw [loadBundle, if_pos hl, hv0]; exact e, fun k hk => ?_, fun k v hk hex => ?_⟩
      · rw [h1 k fun g d hg => hk g d (by simp [hg]), Workspace.find_put, if_neg]
        exact fun e => hk f b (by simp) hl e.symm
      · by_cases hex' : ∃ f b, (f, b) ∈ es ∧ isLoadable (splitExt f).2 = true ∧ sanitize (splitExt f).1 = k
        · exact h2 k v (fun g d hg => hk g d (by simp [hg])) hex'
        · rw [h1 k fun g d hg hlg e => hex' ⟨g, d, hg, hlg, e⟩, Workspace.find_put]
          obtain ⟨g, d, hg, hlg, hsk⟩ := hex
          rcases List.mem_cons.1 hg with e' | hg
          · cases e'
            rw [if_pos hsk.symm]
            have := hk f b (by simp) hl hsk
            rw [hv0] at this
            exact this
          · exact absurd ⟨g, d, hg, hlg, hsk⟩ hex'
    · obtain ⟨ws, e, h1, h2⟩ := loadBundle_spec c es ws0 fun g d hg => hdec g d (by simp [hg])
      refine ⟨ws, by rw [loadBundle, if_neg hl]; exact e, fun k hk => ?_, fun k v hk hex => ?_⟩
      · exact h1 k fun g d hg => hk g d (by simp [hg])
      · refine h2 k v (fun g d hg => hk g d (by simp [hg])) ?_
        obtain ⟨g, d, hg, hlg, hsk⟩ := hex
        rcases List.mem_cons.1 hg with e' | hg
        · cases e'; exact absurd hlg hl
        · exact ⟨g, d, hg, hlg, hsk⟩

end TinyDIP.Cli
