import Verif.Spec.Cli
import Verif.Model.CliHandlers
import Mathlib.Tactic.Set

set_option linter.unusedSimpArgs false

namespace TinyDIP.Cli

theorem imageTy_iff {t : Ty} : ImageTy t ↔ isMasterImage t = true := by
  unfold ImageTy
  constructor
  · rintro (⟨n, rfl⟩ | ⟨n, rfl⟩) <;> rfl
  · intro h
    match t, h with
    | .image (.num n), _ => exact Or.inl ⟨n, rfl⟩
    | .image (.scalar n), _ => exact Or.inr ⟨n, rfl⟩

theorem dataTy_iff {t : Ty} : DataTy t ↔ isMasterData t = true := by
  unfold DataTy
  constructor
  · rintro (h | ⟨k, n, rfl⟩)
    · rcases h with ⟨n, rfl⟩ | ⟨n, rfl⟩ <;> rfl
    · rfl
  · intro h
    match t, h with
    | .cont k (.num n), _ => exact Or.inr ⟨k, n, rfl⟩
    | .image p, h => exact Or.inl (imageTy_iff.2 h)

theorem containerTy_iff {k : Kind} {e : Ty} : ContainerTy k e ↔ isAllContainer (.cont k e) = true := by
  unfold ContainerTy isAllContainer
  rw [imageTy_iff]
  cases k <;> cases e <;> simp [isMasterData, isImageContainer, isMasterImage]

theorem not_imageTy {t : Ty} (h : ¬ ImageTy t) : isMasterImage t = false := by
  simpa [imageTy_iff] using h

theorem not_dataTy {t : Ty} (h : ¬ DataTy t) : isMasterData t = false := by
  simpa [dataTy_iff] using h

theorem isJunk_iff (c : Char) : isJunk c = true ↔ Junk c := by
  simp [isJunk, isSpace, Junk, or_assoc]

theorem dropWhile_append_all {α : Type} (p : α → Bool) (l r : List α) (h : ∀ a ∈ l, p a = true) :
    (l ++ r).dropWhile p = r.dropWhile p := by
  induction l with
  | nil => rfl
  | cons a l ih =>
    simp only [List.cons_append, List.dropWhile_cons, h a (by simp), if_true]
    exact ih fun b hb => h b (by simp [hb])

theorem dropWhile_eq_self_of_head {α : Type} (p : α → Bool) (l : List α)
    (h : ∀ a, l.head? = some a → p a = false) : l.dropWhile p = l := by
  cases l with
  | nil => rfl
  | cons a l => simp [List.dropWhile_cons, h a rfl]

theorem head?_dropWhile {α : Type} (p : α → Bool) (l : List α) :
    ∀ a, (l.dropWhile p).head? = some a → p a = false := by
  induction l with
  | nil => simp
  | cons b l ih =>
    intro a
    by_cases hb : p b = true
    · simp only [List.dropWhile_cons, hb, if_true]; exact ih a
    · simp only [List.dropWhile_cons, hb]
      intro h
      simp at h
      subst h
      simpa using hb

theorem takeWhile_all {α : Type} (p : α → Bool) (l : List α) : ∀ a ∈ l.takeWhile p, p a = true := by
  induction l with
  | nil => simp
  | cons b l ih =>
    intro a ha
    by_cases hb : p b = true
    · simp only [List.takeWhile_cons, hb, if_true, List.mem_cons] at ha
      rcases ha with rfl | ha
      · exact hb
      · exact ih a ha
    · simp [List.takeWhile_cons, hb] at ha

theorem means_sanitize (s : Str) : Means s (sanitize s) := by
  have h1 : s.reverse = s.reverse.takeWhile isJunk ++ s.reverse.dropWhile isJunk :=
    (List.takeWhile_append_dropWhile).symm
  set a := (s.reverse.dropWhile isJunk).reverse with ha
  have hs : s = a ++ (s.reverse.takeWhile isJunk).reverse := by
    have := congrArg List.reverse h1
    rw [List.reverse_reverse, List.reverse_append] at this
    exact this
  have ha2 : a = a.takeWhile isJunk ++ a.dropWhile isJunk :=
    (List.takeWhile_append_dropWhile).symm
  have hsan : sanitize s = a.dropWhile isJunk := rfl
  have tw : ∀ (l : Str), ∀ c ∈ l.takeWhile isJunk, isJunk c = true := by
    intro l c hc
    exact takeWhile_all isJunk l c hc
  refine ⟨⟨a.takeWhile isJunk, (s.reverse.takeWhile isJunk).reverse, ?_, ?_, ?_⟩, ?_, ?_⟩
  · rw [hsan, ← ha2]; exact hs
  · intro c hc; exact (isJunk_iff c).1 (tw _ c hc)
  · intro c hc; exact (isJunk_iff c).1 (tw _ c (List.mem_reverse.1 hc))
  · intro c hc hj
    have := head?_dropWhile isJunk a c (by rw [← hsan]; exact hc)
    rw [(isJunk_iff c).2 hj] at this; exact absurd this (by simp)
  · intro c hc hj
    rw [hsan] at hc
    have hne : a.dropWhile isJunk ≠ [] := by
      intro h; rw [h] at hc; simp at hc
    have hl : a.getLast? = some c := by
      rw [ha2, List.getLast?_append, hc]; rfl
    have hh : (s.reverse.dropWhile isJunk).head? = some c := by
      rw [ha, List.getLast?_reverse] at hl; exact hl
    have := head?_dropWhile isJunk _ c hh
    rw [(isJunk_iff c).2 hj] at this; exact absurd this (by simp)

theorem sanitize_of_means {s t : Str} (h : Means s t) : sanitize s = t := by
  obtain ⟨⟨pre, suf, rfl, hp, hs⟩, hh, hl⟩ := h
  have hp' : ∀ c ∈ pre, isJunk c = true := fun c hc => (isJunk_iff c).2 (hp c hc)
  have hs' : ∀ c ∈ suf.reverse, isJunk c = true := fun c hc =>
    (isJunk_iff c).2 (hs c (List.mem_reverse.1 hc))
  have hh' : ∀ c, t.head? = some c → isJunk c = false := fun c hc => by
    have := hh c hc
    rw [← isJunk_iff] at this; simpa using this
  have hl' : ∀ c, t.reverse.head? = some c → isJunk c = false := fun c hc => by
    have := hl c (by rw [← hc, List.head?_reverse])
    rw [← isJunk_iff] at this; simpa using this
  unfold sanitize
  rw [List.reverse_append, dropWhile_append_all _ _ _ hs', List.reverse_append]
  by_cases ht : t = []
  · subst ht
    simp only [List.reverse_nil, List.nil_append]
    have : (pre.reverse).dropWhile isJunk = [] := by
      have := dropWhile_append_all isJunk pre.reverse [] (fun c hc => hp' c (List.mem_reverse.1 hc))
      simpa using this
    rw [this]; rfl
  · have h1 : (t.reverse ++ pre.reverse).dropWhile isJunk = t.reverse ++ pre.reverse := by
      apply dropWhile_eq_self_of_head
      intro c hc
      apply hl'
      rw [List.head?_append] at hc
      cases htr : t.reverse with
      | nil => exact absurd (List.reverse_eq_nil_iff.1 htr) ht
      | cons x xs => rw [htr] at hc; simpa using hc
    rw [h1, List.reverse_append, List.reverse_reverse, List.reverse_reverse,
      dropWhile_append_all _ _ _ hp', dropWhile_eq_self_of_head _ _ hh']

theorem means_iff {s t : Str} : Means s t ↔ sanitize s = t :=
  ⟨sanitize_of_means, fun h => h ▸ means_sanitize s⟩

theorem sameVar_iff {s t : Str} : SameVar s t ↔ sanitize s = sanitize t := by
  constructor
  · rintro ⟨n, h1, h2⟩; rw [means_iff.1 h1, means_iff.1 h2]
  · intro h; exact ⟨_, means_sanitize s, h ▸ means_sanitize t⟩

theorem sanitize_idem (s : Str) : sanitize (sanitize s) = sanitize s := by
  apply sanitize_of_means
  have h := means_sanitize s
  exact ⟨⟨[], [], by simp, by simp, by simp⟩, h.2.1, h.2.2⟩

/-- A text that neither starts nor ends with junk denotes itself. -/
theorem sanitize_eq_self {s : Str} (h1 : ∀ c, s.head? = some c → ¬ Junk c)
    (h2 : ∀ c, s.getLast? = some c → ¬ Junk c) : sanitize s = s :=
  sanitize_of_means ⟨⟨[], [], by simp, by simp, by simp⟩, h1, h2⟩

/-! Workspace -/

namespace Workspace

variable {V : Type}

theorem find?_filter_ne {k j : Str} (l : List (Str × V)) (h : j ≠ k) :
    (l.filter fun p => p.1 != k).find? (fun p => p.1 == j) = l.find? (fun p => p.1 == j) := by
  induction l with
  | nil => rfl
  | cons p l ih =>
    by_cases hk : p.1 = k
    · have : (p.1 == j) = false := by
        rw [hk]; simp; exact fun e => h e.symm
      simp [List.filter_cons, hk, List.find?_cons, ih, Ne.symm h]
    · by_cases hj : p.1 = j
      · simp [List.filter_cons, List.find?_cons, hj, h]
      · simp [List.filter_cons, hk, List.find?_cons, hj, ih]

theorem find_erase (w : Workspace V) (k j : Str) :
    (w.erase k).find j = if j = k then none else w.find j := by
  by_cases h : j = k
  · subst h
    simp only [find, erase, if_true]
    have : (w.store.filter fun p => p.1 != j).find? (fun p => p.1 == j) = none := by
      rw [List.find?_eq_none]
      intro x hx
      simp at hx
      simp [hx.2]
    rw [this]; rfl
  · simp only [h, if_false, find, erase, find?_filter_ne _ h]

theorem find_assign (w : Workspace V) (k j : Str) (v : V) :
    (w.assign k v).find j = if j = k then some v else w.find j := by
  by_cases h : j = k
  · subst h; simp [assign, find]
  · have := find_erase w k j
    simp only [h, if_false] at this ⊢
    rw [← this]
    have : (k == j) = false := by simp [Ne.symm h]
    simp [assign, find, List.find?_cons, this]

theorem retrieveAny_put (w : Workspace V) (n m : Str) (v : V) :
    (w.put n v).retrieveAny m = if sanitize m = sanitize n then some v else w.retrieveAny m :=
  find_assign ..

theorem find_put (w : Workspace V) (n k : Str) (v : V) :
    (w.put n v).find k = if k = sanitize n then some v else w.find k :=
  find_assign ..

theorem find_remove (w : Workspace V) (n k : Str) :
    (w.remove n).1.find k = if k = sanitize n then none else w.find k := by
  unfold remove
  cases h : w.find (sanitize n) with
  | some v => simp only [find_erase]
  | none =>
    by_cases hk : k = sanitize n
    · subst hk; simp [h]
    · simp [hk]

end Workspace

theorem policyWord_iff' (a : Str) : PolicyWord a ↔ isPolicy a = true := by
  have e1 : "seq".toList = sSeq := by decide
  have e2 : "par".toList = sPar := by decide
  have e3 : "par_unseq".toList = sParUnseq := by decide
  have e4 : "unseq".toList = sUnseq := by decide
  simp [PolicyWord, isPolicy, or_assoc, e1, e2, e3, e4]

theorem argsFilter_eq (l : List Str) : argsFilter l = plainWords l := by
  unfold plainWords
  induction l with
  | nil => rfl
  | cons a l ih =>
    by_cases h : isPolicy a = true
    · simp [argsFilter, h, policyWord_iff', ih]
    · simp [argsFilter, h, policyWord_iff', ih]

end TinyDIP.Cli
