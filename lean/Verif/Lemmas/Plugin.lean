import Verif.Model.Plugin
import Mathlib.Data.List.Perm.Basic
import Mathlib.Data.List.Range
import Mathlib.Data.List.Nodup
import Mathlib.Data.List.Flatten

/-!
# Lemmas about the command table, library references and file extensions
-/

namespace TinyDIP.Cli.Plug

open TinyDIP.Cli

variable {σ : Type}

theorem find_append (t u : Table σ) (n : Str) : Table.find (t ++ u) n = (Table.find t n).or (Table.find u n) := by
  unfold Table.find
  rw [List.find?_append]
  cases List.find? (fun p => p.1 == n) t <;> simp

theorem find_register (t : Table σ) (n m : Str) (e : Entry σ) :
    (t.register n e).find m = (t.find m).or (if n = m then some e else none) := by
  unfold Table.register
  cases h : t.find n with
  | some x =>
    dsimp only
    by_cases hn : n = m
    · subst hn
      rw [h]; simp
    · simp [hn]
  | none =>
    dsimp only
    rw [find_append]
    congr 1
    by_cases hn : n = m <;> simp [Table.find, hn]

theorem find_registerAll {β : Type} (f : Str × β → Entry σ) (cs : List (Str × β)) (t : Table σ) (m : Str) :
    (cs.foldl (fun t c => Table.register t c.1 (f c)) t).find m =
      (t.find m).or ((cs.find? fun c => c.1 == m).map f) := by
  induction cs generalizing t with
  | nil => simp
  | cons c cs ih =>
    rw [List.foldl_cons, ih, find_register, Option.or_assoc]
    congr 1
    by_cases h : c.1 = m <;> simp [h]

/-! ### File names -/

theorem splitExt_module {f suffix : Str} (hs : '.' ∉ suffix) (hne : suffix ≠ []) :
    (splitExt f).2 = '.' :: suffix ↔ ∃ stem, stem ≠ [] ∧ f = stem ++ '.' :: suffix := by
  have hsplit := List.takeWhile_append_dropWhile (p := (· != '.')) (l := f.reverse)
  constructor
  · intro h
    unfold splitExt at h
    simp only at h
    cases hd : f.reverse.dropWhile (· != '.') with
    | nil => rw [hd] at h; simp at h
    | cons a as =>
      cases as with
      | nil => rw [hd] at h; simp at h
      | cons b bs =>
        rw [hd] at h hsplit
        simp only [List.cons.injEq, true_and] at h
        have ha : a = '.' := by
          have := List.head_dropWhile_not (p := (· != '.')) (l := f.reverse) (by rw [hd]; simp)
          simpa [hd] using this
        refine ⟨(b :: bs).reverse, by simp, ?_⟩
        have := congrArg List.reverse hsplit
        rw [List.reverse_append, List.reverse_reverse, List.reverse_cons, h, ha] at this
        rw [← this]
        simp
  · rintro ⟨stem, hst, rfl⟩
    unfold splitExt
    have hr : (stem ++ '.' :: suffix).reverse = suffix.reverse ++ '.' :: stem.reverse := by simp
    have h1 : ∀ c ∈ suffix.reverse, (c != '.') = true := by
      intro c hc
      simp only [List.mem_reverse] at hc
      simp only [bne_iff_ne, ne_eq]
      rintro rfl
      exact hs hc
    have ht : List.takeWhile (· != '.') (stem ++ '.' :: suffix).reverse = suffix.reverse := by
      rw [hr, List.takeWhile_append_of_pos h1]
      simp
    have hdr : List.dropWhile (· != '.') (stem ++ '.' :: suffix).reverse = '.' :: stem.reverse := by
      rw [hr, List.dropWhile_append_of_pos h1]
      simp
    simp only [ht, hdr]
    cases hrev : stem.reverse with
    | nil => exact absurd (by simpa using hrev) hst
    | cons b bs => simp

/-! ### Library references -/

/-- The references held by a vector. -/
def held (v : LVec) : List Nat := v.objs.filterMap (·.handle)

theorem destroy_none (os : Os) : Lib.destroy ⟨none⟩ os = os := rfl

theorem foldl_destroy_left (objs : List Lib) (os : Os) :
    (objs.map (·.moveOut.2)).foldl (fun o l => l.destroy o) os = os := by
  induction objs generalizing os with
  | nil => rfl
  | cons l ls ih =>
    simp only [List.map_cons, List.foldl_cons]
    exact ih _

theorem map_moveOut (objs : List Lib) : objs.map (·.moveOut.1) = objs := by
  induction objs with
  | nil => rfl
  | cons l ls ih => simp only [List.map_cons, ih]; rfl

theorem emplaceBack_eq (grow : Nat → Nat) (v : LVec) (lib : Lib) (os : Os) :
    ∃ cap, v.emplaceBack grow lib os = (⟨v.objs ++ [lib], cap⟩, ⟨none⟩, os) := by
  unfold LVec.emplaceBack
  split
  · exact ⟨v.cap, rfl⟩
  · refine ⟨grow v.cap, ?_⟩
    rw [foldl_destroy_left, map_moveOut]
    rfl

theorem foldl_destroy (objs : List Lib) (os : Os) :
    objs.foldl (fun o l => l.destroy o) os = ⟨os.next, os.closed ++ objs.filterMap (·.handle)⟩ := by
  induction objs generalizing os with
  | nil => simp
  | cons l ls ih =>
    rw [List.foldl_cons, ih]
    unfold Lib.destroy
    cases h : l.handle <;> simp [Os.dlclose, h]

/-- The bookkeeping is right: every reference is held by one object or has been given back, once. -/
structure Sound (h : Host σ) : Prop where
  full : ∀ l ∈ h.libs.objs, l.handle ≠ none
  once : (held h.libs ++ h.os.closed).Perm (List.range h.os.next)
  owner : ∀ p ∈ h.table, ∀ r, p.2.owner = some r → r < h.os.next

/-- In addition, the code of every registered command is loaded. -/
structure Live (h : Host σ) : Prop where
  owner : ∀ p ∈ h.table, ∀ r, p.2.owner = some r → r ∈ held h.libs

theorem mem_registerAll {β : Type} (f : Str × β → Entry σ) (cs : List (Str × β)) (t : Table σ) {p : Str × Entry σ}
    (h : p ∈ cs.foldl (fun t c => Table.register t c.1 (f c)) t) : p ∈ t ∨ ∃ c ∈ cs, p = (c.1, f c) := by
  induction cs generalizing t with
  | nil => exact Or.inl h
  | cons c cs ih =>
    rw [List.foldl_cons] at h
    rcases ih _ h with h | ⟨c', hc, e⟩
    · unfold Table.register at h
      cases hf : t.find c.1 with
      | some x => rw [hf] at h; exact Or.inl h
      | none =>
        rw [hf] at h
        rcases List.mem_append.1 h with h | h
        · exact Or.inl h
        · exact Or.inr ⟨c, List.mem_cons_self, by simpa using h⟩
    · exact Or.inr ⟨c', List.mem_cons_of_mem _ hc, e⟩

/-- A file that gets as far as registering commands. -/
def effective (m : Module σ) : Bool := isModuleExt (splitExt m.file).2 && m.opens && m.hasSymbol

theorem loadOne_table (grow : Nat → Nat) (h : Host σ) (m : Module σ) :
    (loadOne grow h m).1.table = if effective m = true then
      m.commands.foldl (fun t c => Table.register t c.1 ⟨some h.os.next, c.2⟩) h.table else h.table := by
  unfold loadOne effective
  by_cases h1 : isModuleExt (splitExt m.file).2 = true
  · by_cases h2 : m.opens = true
    · by_cases h3 : m.hasSymbol = true
      · cases he : m.ending <;> simp [h1, h2, h3, Os.dlopen]
      · simp [h1, h2, h3, Os.dlopen]
    · simp [h1, h2]
  · simp [h1]

theorem loadOne_flag (grow : Nat → Nat) (h : Host σ) (m : Module σ) :
    (loadOne grow h m).2 = (effective m && decide (m.ending = .escaped)) := by
  unfold loadOne effective
  by_cases h1 : isModuleExt (splitExt m.file).2 = true
  · by_cases h2 : m.opens = true
    · by_cases h3 : m.hasSymbol = true
      · cases he : m.ending <;> simp [h1, h2, h3, Os.dlopen]
      · simp [h1, h2, h3, Os.dlopen]
    · simp [h1, h2]
  · simp [h1]

theorem sound_close {h : Host σ} (s : Sound h) (t : Table σ)
    (ht : ∀ p ∈ t, ∀ r, p.2.owner = some r → r < h.os.next + 1) :
    Sound (⟨t, h.libs, Lib.destroy ⟨some h.os.next⟩ { h.os with next := h.os.next + 1 }⟩ : Host σ) := by
  refine ⟨s.full, ?_, ht⟩
  simp only [Lib.destroy, Os.dlclose]
  rw [List.range_succ, ← List.append_assoc]
  exact s.once.append_right _

theorem sound_loadOne (grow : Nat → Nat) {h : Host σ} (s : Sound h) (m : Module σ) : Sound (loadOne grow h m).1 := by
  have hreg : ∀ p ∈ m.commands.foldl (fun t c => Table.register t c.1 ⟨some h.os.next, c.2⟩) h.table,
      ∀ r, p.2.owner = some r → r < h.os.next + 1 := by
    intro p hp r hr
    rcases mem_registerAll (fun c => ⟨some h.os.next, c.2⟩) _ _ hp with hp | ⟨c, -, rfl⟩
    · exact Nat.lt_succ_of_lt (s.owner p hp r hr)
    · simp only [Option.some.injEq] at hr
      omega
  have hold : ∀ p ∈ h.table, ∀ r, p.2.owner = some r → r < h.os.next + 1 :=
    fun p hp r hr => Nat.lt_succ_of_lt (s.owner p hp r hr)
  unfold loadOne
  by_cases h1 : isModuleExt (splitExt m.file).2 = true
  · by_cases h2 : m.opens = true
    · by_cases h3 : m.hasSymbol = true
      · cases he : m.ending
        · simp only [h1, h2, h3, Os.dlopen, if_true]
          obtain ⟨cap, e⟩ := emplaceBack_eq grow h.libs ⟨some h.os.next⟩ { h.os with next := h.os.next + 1 }
          rw [e]
          refine ⟨?_, ?_, hreg⟩
          · intro l hl
            rcases List.mem_append.1 hl with hl | hl
            · exact s.full l hl
            · simp only [List.mem_singleton] at hl
              simp [hl]
          · simp only [destroy_none, held, List.filterMap_append, List.filterMap_cons, List.filterMap_nil]
            rw [List.range_succ]
            refine List.Perm.trans ?_ (s.once.append_right [h.os.next])
            rw [List.append_assoc, List.append_assoc]
            exact (List.perm_append_comm).append_left _
        · simp only [h1, h2, h3, Os.dlopen, if_true]
          exact sound_close s _ hreg
        · simp only [h1, h2, h3, Os.dlopen, if_true]
          exact sound_close s _ hreg
      · simp only [h1, h2, h3, Os.dlopen, if_true]
        exact sound_close s _ hold
    · simpa [h1, h2] using s
  · simpa [h1] using s

theorem live_loadOne (grow : Nat → Nat) {h : Host σ} (l : Live h) {m : Module σ}
    (hm : m.ending = .returned ∨ m.commands = []) : Live (loadOne grow h m).1 := by
  unfold loadOne
  by_cases h1 : isModuleExt (splitExt m.file).2 = true
  · by_cases h2 : m.opens = true
    · by_cases h3 : m.hasSymbol = true
      · cases he : m.ending
        · simp only [h1, h2, h3, Os.dlopen, if_true]
          obtain ⟨cap, e⟩ := emplaceBack_eq grow h.libs ⟨some h.os.next⟩ { h.os with next := h.os.next + 1 }
          rw [e]
          refine ⟨?_⟩
          intro p hp r hr
          simp only [held, List.filterMap_append, List.mem_append]
          rcases mem_registerAll (fun c => ⟨some h.os.next, c.2⟩) _ _ hp with hp | ⟨c, -, rfl⟩
          · exact Or.inl (l.owner p hp r hr)
          · simp only [Option.some.injEq] at hr
            right
            simp [hr]
        all_goals
          rcases hm with hm | hm
          · rw [he] at hm; cases hm
          · simp only [h1, h2, h3, Os.dlopen, if_true, hm, List.foldl_nil]
            exact ⟨l.owner⟩
      · simp only [h1, h2, h3, Os.dlopen, if_true]
        exact ⟨l.owner⟩
    · simpa [h1, h2] using l
  · simpa [h1] using l

theorem sound_loadAll (grow : Nat → Nat) (ms : List (Module σ)) {h : Host σ} (s : Sound h) :
    Sound (loadAll grow h ms).1 := by
  induction ms generalizing h with
  | nil => exact s
  | cons m ms ih =>
    have := sound_loadOne grow s m
    rw [loadAll]
    cases e : loadOne grow h m with
    | mk h' b =>
      rw [e] at this
      cases b
      · exact ih this
      · exact this

theorem live_loadAll (grow : Nat → Nat) (ms : List (Module σ)) {h : Host σ} (l : Live h)
    (hm : ∀ m ∈ ms, m.ending = .returned ∨ m.commands = []) : Live (loadAll grow h ms).1 := by
  induction ms generalizing h with
  | nil => exact l
  | cons m ms ih =>
    have := live_loadOne grow l (hm m List.mem_cons_self)
    rw [loadAll]
    cases e : loadOne grow h m with
    | mk h' b =>
      rw [e] at this
      cases b
      · exact ih this fun m' hm' => hm m' (List.mem_cons_of_mem _ hm')
      · exact this

theorem sound_loadPlugins (grow : Nat → Nat) (d : Dir σ) {h : Host σ} (s : Sound h) :
    Sound (loadPlugins grow h d).1 := by
  cases d with
  | missing => exact s
  | unreadable => exact s
  | entries l =>
    have := sound_loadAll grow l s
    rw [loadPlugins]
    cases e : loadAll grow h l with
    | mk h' b => rw [e] at this; cases b <;> exact this

/-- The code of a held library is loaded. -/
theorem isOpen_held {h : Host σ} (s : Sound h) {r : Nat} (hr : r ∈ held h.libs) : h.os.isOpen r = true := by
  have hnd : (held h.libs ++ h.os.closed).Nodup := s.once.nodup_iff.2 (List.nodup_range)
  have hlt : r < h.os.next := by
    have := (s.once.mem_iff (a := r)).1 (List.mem_append_left _ hr)
    simpa using this
  have hnc : r ∉ h.os.closed := by
    intro hc
    exact (List.disjoint_of_nodup_append hnd) hr hc
  simp [Os.isOpen, hlt, hnc]

/-! ### Sets of registrations -/

/-- The first registration of a name. -/
def firstReg {β : Type} (cs : List (Str × β)) (n : Str) : Option β := (cs.find? fun c => c.1 == n).map (·.2)

theorem firstReg_append {β : Type} (a b : List (Str × β)) (n : Str) :
    firstReg (a ++ b) n = (firstReg a n).or (firstReg b n) := by
  unfold firstReg
  rw [List.find?_append]
  cases List.find? (fun p => p.1 == n) a <;> simp

theorem firstReg_eq_some {β : Type} {cs : List (Str × β)} (hnd : (cs.map (·.1)).Nodup) (n : Str) (x : β) :
    firstReg cs n = some x ↔ (n, x) ∈ cs := by
  induction cs with
  | nil => simp [firstReg]
  | cons c cs ih =>
    rw [List.map_cons, List.nodup_cons] at hnd
    have ih := ih hnd.2
    unfold firstReg at ih ⊢
    by_cases h : c.1 = n
    · rw [List.find?_cons_of_pos (by simp [h])]
      simp only [Option.map_some, Option.some.injEq, List.mem_cons]
      constructor
      · rintro rfl
        left
        rw [← h]
      · rintro (e | hm)
        · rw [← e]
        · exact absurd (List.mem_map_of_mem (f := (·.1)) hm) (by simpa [h] using hnd.1)
    · rw [List.find?_cons_of_neg (by simp [h]), ih]
      simp only [List.mem_cons]
      constructor
      · exact Or.inr
      · rintro (e | hm)
        · rw [← e] at h; exact absurd rfl h
        · exact hm

theorem firstReg_perm {β : Type} {a b : List (Str × β)} (h : a.Perm b) (hnd : (a.map (·.1)).Nodup) (n : Str) :
    firstReg a n = firstReg b n := by
  apply Option.ext
  intro x
  rw [firstReg_eq_some hnd, firstReg_eq_some ((h.map _).nodup_iff.1 hnd), h.mem_iff]

theorem loadAll_find (grow : Nat → Nat) (ms : List (Module σ)) (h : Host σ) (hend : (loadAll grow h ms).2 = false)
    (n : Str) : ((loadAll grow h ms).1.table.find n).map (·.info) =
      ((h.table.find n).map (·.info)).or (firstReg ((ms.filter effective).flatMap (·.commands)) n) := by
  induction ms generalizing h with
  | nil => simp [loadAll, firstReg]
  | cons m ms ih =>
    rw [loadAll] at hend ⊢
    have ht := loadOne_table grow h m
    cases e : loadOne grow h m with
    | mk h' b =>
      rw [e] at hend ht
      cases b with
      | true => simp at hend
      | false =>
        simp only at hend ht ⊢
        rw [ih h' hend, ht]
        by_cases hm : effective m = true
        · rw [if_pos hm, List.filter_cons_of_pos hm, List.flatMap_cons, firstReg_append, ← Option.or_assoc]
          congr 1
          rw [find_registerAll (fun c => ⟨some h.os.next, c.2⟩)]
          unfold firstReg
          cases h.table.find n <;> simp [Function.comp_def]
        · rw [if_neg hm, List.filter_cons_of_neg (by simpa using hm)]

theorem loadAll_keeps (grow : Nat → Nat) (ms : List (Module σ)) (h : Host σ) (n : Str) (e : Entry σ)
    (he : h.table.find n = some e) : (loadAll grow h ms).1.table.find n = some e := by
  induction ms generalizing h with
  | nil => exact he
  | cons m ms ih =>
    rw [loadAll]
    have ht := loadOne_table grow h m
    have h1 : (loadOne grow h m).1.table.find n = some e := by
      rw [ht]
      split
      · rw [find_registerAll (fun c => ⟨some h.os.next, c.2⟩), he]; rfl
      · exact he
    cases e' : loadOne grow h m with
    | mk h' b =>
      rw [e'] at h1
      cases b
      · exact ih h' h1
      · exact h1

end TinyDIP.Cli.Plug
