import Verif.Spec.Session
import Verif.Props.CliTransform
import Verif.Props.CliScalar
import Verif.Props.CliBinary
import Verif.Props.CliCount
import Verif.Props.CliCompose
import Verif.Props.CliDistance
import Verif.Props.Elements

/-!
# Lemmas about sessions
-/

namespace TinyDIP.Props

open TinyDIP TinyDIP.Cli

variable {F P : Type}

/-! ## What a command may change -/

/-- At most one variable or one file changes, and it is one of the words. -/
def Kept (io : FileIO P F) (w w' : World P F) (args : List Str) : Prop :=
  (w'.ws = w.ws ∨ ∃ d, '$' :: d ∈ args ∧ ∀ m, ¬ SameVar m d → w'.ws.retrieveAny m = w.ws.retrieveAny m) ∧
    (w'.fs = w.fs ∨ ∃ a ∈ args, isVar a = false ∧ ∃ p v, Means a p ∧ io.save w.fs p v = some w'.fs)

theorem Kept.rfl' {io : FileIO P F} {w : World P F} {args : List Str} : Kept io w w args := ⟨.inl rfl, .inl rfl⟩

theorem Kept.same {io : FileIO P F} {w w' : World P F} {args : List Str} (h : Kept io w w' args) (x : Str)
    (hx : ∀ a ∈ args, ¬ MayName a x) : w'.ws.retrieveAny x = w.ws.retrieveAny x := by
  rcases h.1 with h | ⟨d, hd, h⟩
  · rw [h]
  · refine h x fun e => hx _ hd (.inr (.inl ⟨d, rfl, ?_⟩))
    rw [sameVar_iff] at e ⊢
    exact e.symm

theorem Kept.files {io : FileIO P F} {w w' : World P F} {args : List Str} (h : Kept io w w' args) {D : Type}
    (see : F → D) (hx : ∀ a ∈ args, Elsewhere io see a) : see w'.fs = see w.fs := by
  rcases h.2 with h | ⟨a, ha, hv, p, v, hp, h⟩
  · rw [h]
  · rcases hx a ha with e | e
    · simp [isVar, e] at hv
    · exact e p hp _ v _ h

/-- What is required of every entry of the registry: as long as all words are harmless, the change is too. -/
def Respects (R : Str → Prop) (S : World P F → World P F → Prop) (h : Handler (Option (World P F))) : Prop :=
  (∀ args, (h none args).1 = none) ∧
    ∀ w args w' c, h (some w) args = (some w', c) → (∀ a ∈ args, R a) → S w w'

theorem respects_ofU {R : Str → Prop} {S : World P F → World P F → Prop} {h : HandlerU P F}
    (hk : ∀ w args out, h w args = .ok out → (∀ a ∈ args, R a) → S w out.world) : Respects R S (ofU h) := by
  refine ⟨fun _ => rfl, fun w args w' c e hx => ?_⟩
  unfold ofU at e
  simp only at e
  split at e
  · rename_i out ho
    simp only [Prod.mk.injEq, Option.some.injEq] at e
    rw [← e.1]
    exact hk _ _ _ ho hx
  · simp at e
  · simp at e

theorem respects_ofPlain {R : Str → Prop} {S : World P F → World P F → Prop} {h : Handler (World P F)}
    (hk : ∀ w args, (∀ a ∈ args, R a) → S w (h w args).1) : Respects R S (ofPlain h) := by
  refine ⟨fun _ => rfl, fun w args w' c e hx => ?_⟩
  simp only [ofPlain, Prod.mk.injEq, Option.some.injEq] at e
  rw [← e.1]
  exact hk _ _ hx

theorem respects_ofTold {R : Str → Prop} {S : World P F → World P F → Prop} (hS : ∀ w, S w w)
    {h : World P F → List Str → Res (Told P F)} (hk : ∀ w args t, h w args = .ok t → t.world = w) :
    Respects R S (ofTold h) := by
  refine ⟨fun _ => rfl, fun w args w' c e hx => ?_⟩
  unfold ofTold at e
  simp only at e
  split at e
  · rename_i out ho
    simp only [Prod.mk.injEq, Option.some.injEq] at e
    rw [← e.1, hk _ _ _ ho]
    exact hS w
  · simp at e
  · simp at e

theorem discreet_iff (h : Handler (Option (World P F))) : Discreet h ↔ ∀ x,
    Respects (fun a => ¬ MayName a x) (fun w w' => w'.ws.retrieveAny x = w.ws.retrieveAny x) h :=
  ⟨fun hd x => ⟨hd.1, fun w args w' c e hx => hd.2 w args w' c e x hx⟩,
    fun hr => ⟨(hr []).1, fun w args w' c e x hx => (hr x).2 w args w' c e hx⟩⟩

theorem tidy_iff (io : FileIO P F) (h : Handler (Option (World P F))) : Tidy io h ↔ ∀ (D : Type) (see : F → D),
    Respects (fun a => Elsewhere io see a) (fun w w' => see w'.fs = see w.fs) h :=
  ⟨fun hd D see => ⟨hd.1, fun w args w' c e hx => hd.2 w args w' c e D see hx⟩,
    fun hr => ⟨(hr Unit fun _ => ()).1, fun w args w' c e D see hx => (hr D see).2 w args w' c e hx⟩⟩

/-- Both at once. -/
def Modest (io : FileIO P F) (h : Handler (Option (World P F))) : Prop := Discreet h ∧ Tidy io h

theorem modest_ofU {io : FileIO P F} {h : HandlerU P F}
    (hk : ∀ w args out, h w args = .ok out → Kept io w out.world args) : Modest io (ofU h) :=
  ⟨(discreet_iff _).2 fun x => respects_ofU fun w args out e hx => (hk w args out e).same x hx,
    (tidy_iff _ _).2 fun _ see => respects_ofU fun w args out e hx => (hk w args out e).files see hx⟩

theorem modest_ofPlain {io : FileIO P F} {h : Handler (World P F)} (hk : ∀ w args, Kept io w (h w args).1 args) :
    Modest io (ofPlain h) :=
  ⟨(discreet_iff _).2 fun x => respects_ofPlain fun w args hx => (hk w args).same x hx,
    (tidy_iff _ _).2 fun _ see => respects_ofPlain fun w args hx => (hk w args).files see hx⟩

theorem modest_ofTold (io : FileIO P F) {h : World P F → List Str → Res (Told P F)}
    (hk : ∀ w args t, h w args = .ok t → t.world = w) : Modest io (ofTold h) :=
  ⟨(discreet_iff _).2 fun x =>
      respects_ofTold (S := fun w w' => w'.ws.retrieveAny x = w.ws.retrieveAny x) (fun _ => rfl) hk,
    (tidy_iff _ _).2 fun _ see => respects_ofTold (S := fun w w' => see w'.fs = see w.fs) (fun _ => rfl) hk⟩

theorem tidy_ofPlain (io : FileIO P F) {h : Handler (World P F)} (hk : ∀ w args, (h w args).1.fs = w.fs) :
    Tidy io (ofPlain h) :=
  (tidy_iff _ _).2 fun _ see => respects_ofPlain fun w args _ => congrArg see (hk w args)

theorem mem_of_plain {args : List Str} {i : Nat} {o : Str} (h : (plainWords args)[i]? = some o) : o ∈ args := by
  have := List.mem_of_getElem? h
  unfold plainWords at this
  exact (List.mem_filter.1 this).1

/-- The form of the theorems about commands that save an image. -/
theorem kept_of_frame {io : FileIO P F} {w w' : World P F} {args : List Str} {i : Nat}
    (h : w' = w ∨ ∃ o, (plainWords args)[i]? = some o ∧
      ((∃ d, o = '$' :: d ∧ OnlyVar w w' d) ∨ (isVar o = false ∧ OnlyFile io w w' o))) : Kept io w w' args := by
  rcases h with rfl | ⟨o, ho, ⟨d, rfl, hd⟩ | ⟨hv, hd⟩⟩
  · exact .rfl'
  · exact ⟨.inr ⟨d, mem_of_plain ho, hd.2⟩, .inl hd.1⟩
  · refine ⟨.inl hd.1, ?_⟩
    rcases hd.2 with h | ⟨p, v, hp, h⟩
    · exact .inl h
    · exact .inr ⟨o, mem_of_plain ho, hv, p, v, hp, h⟩

theorem kept_of_var {io : FileIO P F} {w w' : World P F} {args : List Str} {i : Nat}
    (h : w' = w ∨ ∃ d, (plainWords args)[i]? = some ('$' :: d) ∧ OnlyVar w w' d) : Kept io w w' args := by
  rcases h with rfl | ⟨d, ho, hd⟩
  · exact .rfl'
  · exact ⟨.inr ⟨d, mem_of_plain ho, hd.2⟩, .inl hd.1⟩

theorem isVar_eq {o : Str} (h : isVar o = true) : o = '$' :: varName o := by
  cases o with
  | nil => simp [isVar] at h
  | cons c cs =>
    have : c = '$' := by simpa [isVar] using h
    subst this
    rfl

theorem kept_put {io : FileIO P F} (w : World P F) {args : List Str} {o : Str} (r : Val P) (h : isVar o = true) (ho : o ∈ args) :
    Kept io w { w with ws := w.ws.put (varName o) r } args := by
  rw [isVar_eq h] at ho
  exact ⟨.inr ⟨_, ho, (onlyVar_put w _ r).2⟩, .inl rfl⟩

theorem kept_save (io : FileIO P F) (w : World P F) {args : List Str} {o : Str} (r : Val P) (ho : o ∈ args) :
    Kept io w (saveArg io w o r).1 args := by
  rcases saveArg_frame io w o r with ⟨d, rfl, h⟩ | ⟨hv, h⟩
  · exact ⟨.inr ⟨d, ho, h.2⟩, .inl h.1⟩
  · refine ⟨.inl h.1, ?_⟩
    rcases h.2 with h | ⟨p, v, hp, h⟩
    · exact .inl h
    · exact .inr ⟨o, ho, hv, p, v, hp, h⟩

theorem kept_deliver {io : FileIO P F} (w : World P F) {args : List Str} {o : Str} (r : Val P) (out : Out P F) (ho : o = [] ∨ o ∈ args)
    (h : deliver w o r = .ok out) : Kept io w out.world args := by
  unfold deliver quiet at h
  split at h
  · split at h
    · injection h with h; subst h; exact .rfl'
    · split at h
      · rename_i hv
        injection h with h; subst h
        rcases ho with rfl | ho
        · simp [isVar] at hv
        · exact kept_put w r hv ho
      · injection h with h; subst h; exact .rfl'
  · injection h with h; subst h; exact .rfl'

theorem mem_of_filtered {args : List Str} {o : Str} (h : o ∈ argsFilter args) : o ∈ args := by
  rw [argsFilter_eq] at h
  unfold plainWords at h
  exact (List.mem_filter.1 h).1

theorem triv_kept {io : FileIO P F} {w : World P F} {args : List Str} {out : Out P F} {c : Ctl}
    (h : (Res.ok ⟨w, c, none⟩ : Res (Out P F)) = .ok out) : Kept io w out.world args := by
  injection h with h; subst h; exact .rfl'

theorem headD_mem {args rest : List Str} (h : ∀ a ∈ rest, a ∈ args) : rest.headD [] = [] ∨ rest.headD [] ∈ args := by
  cases rest with
  | nil => exact .inl rfl
  | cons a l => exact .inr (h a (by simp))

theorem metaScalarArgs_kept (io : FileIO P F) (m : Nat) (setup : List Str → Str → Option (Val P → Res (Val P)))
    (w : World P F) (args : List Str) (out : Out P F) (h : metaScalarArgs io m setup w args = .ok out) :
    Kept io w out.world args := by
  unfold metaScalarArgs at h
  simp only [quiet, raise] at h
  split at h
  · exact triv_kept h
  · split at h
    · cases h
    · rename_i inArg rest hf
      split at h
      · exact triv_kept h
      · split at h
        · exact triv_kept h
        · exact triv_kept h
        · split at h
          · cases h
          · exact triv_kept h
          · refine kept_deliver w _ out (headD_mem fun a ha => mem_of_filtered ?_) h
            rw [hf]; exact List.mem_cons_of_mem _ ha

theorem gaussian_kept (io : FileIO PayR F) (dbl : Str → Option ℝ) (w : World PayR F) (args : List Str)
    (out : Out PayR F) (h : gaussianCmd io dbl w args = .ok out) : Kept io w out.world args := by
  unfold gaussianCmd at h
  simp only [quiet, raise] at h
  split at h
  · split at h
    · split at h
      · cases h
      · exact triv_kept h
      · injection h with h
        subst h
        exact kept_save io w _ (by simp)
    · exact triv_kept h
  · exact triv_kept h

theorem octave_kept (io : FileIO PayR F) (dbl : Str → Option ℝ) (order : List Nat) (w : World PayR F) (args : List Str)
    (out : Out PayR F) (h : octaveCmd io dbl order w args = .ok out) : Kept io w out.world args := by
  unfold octaveCmd at h
  simp only [quiet, raise] at h
  split at h
  · split at h
    · rename_i hv
      split at h
      · split at h
        · exact triv_kept h
        · exact triv_kept h
        · split at h
          · cases h
          · exact triv_kept h
          · exact triv_kept h
          · exact triv_kept h
          · injection h with h
            subst h
            exact kept_put w _ hv (by simp)
      · exact triv_kept h
    · exact triv_kept h
  · exact triv_kept h

theorem sift_kept (io : FileIO PayR F) (dbl : Str → Option ℝ) (sched : Sched)
    (ext : Val PayR → Act (Option (Val PayR))) (w : World PayR F) (args : List Str)
    (out : Out PayR F) (h : siftCmd io dbl sched ext w args = .ok out) : Kept io w out.world args := by
  unfold siftCmd at h
  simp only [quiet, raise] at h
  split at h
  · rename_i inArg outArg rest hf
    split at h
    · rename_i hv
      split at h
      · exact triv_kept h
      · split at h
        · exact triv_kept h
        · exact triv_kept h
        · split at h
          · cases h
          · exact triv_kept h
          · exact triv_kept h
          · exact triv_kept h
          · injection h with h
            subst h
            exact kept_put w _ hv (mem_of_filtered (by rw [hf]; simp))
    · exact triv_kept h
  · exact triv_kept h

/-! ## Commands that are defined for all arguments -/

theorem copy_kept (io : FileIO P F) (w : World P F) (args : List Str) : Kept io w (copyCmd w args).1 args := by
  unfold copyCmd
  split
  · rename_i src dst rest
    split
    · exact .rfl'
    · rename_i hv
      split
      · refine kept_put w _ ?_ (by simp)
        simp only [Bool.or_eq_true, Bool.not_eq_eq_eq_not, Bool.not_true, not_or, Bool.not_eq_false] at hv
        exact hv.2
      · exact .rfl'
  · exact .rfl'

theorem getElement_kept (io : FileIO P F) (w : World P F) (args : List Str) : Kept io w (getElement io w args).1 args := by
  unfold getElement
  split
  · rename_i inArg outArg idxArg rest
    split
    · exact .rfl'
    · rename_i hv
      split
      · exact .rfl'
      · split
        · exact .rfl'
        · exact .rfl'
        · exact .rfl'
        · split
          · exact .rfl'
          · exact kept_put w _ (by simpa using hv) (by simp)
  · exact .rfl'

theorem append_kept (io : FileIO P F) (w : World P F) (args : List Str) : Kept io w (appendElement io w args).1 args := by
  unfold appendElement
  split
  · split
    · exact .rfl'
    · rename_i hv
      split
      · exact .rfl'
      · exact .rfl'
      · exact .rfl'
      · split
        · exact .rfl'
        · split
          · exact .rfl'
          · exact kept_put w _ (by simpa using hv) (by simp)
  · exact .rfl'

theorem erase_kept (io : FileIO P F) (w : World P F) (args : List Str) : Kept io w (eraseElement io w args).1 args := by
  unfold eraseElement
  split
  · split
    · exact .rfl'
    · rename_i hv
      split
      · exact .rfl'
      · split
        · exact .rfl'
        · exact .rfl'
        · exact .rfl'
        · split
          · exact .rfl'
          · exact kept_put w _ (by simpa using hv) (by simp)
  · exact .rfl'

theorem createContainer_kept (io : FileIO P F) (w : World P F) (args : List Str) :
    Kept io w (createContainer io w args).1 args := by
  unfold createContainer
  split
  · split
    · exact .rfl'
    · rename_i hv
      split
      · exact .rfl'
      · exact .rfl'
      · exact kept_put w _ (by simpa using hv) (by simp)
  · exact .rfl'

theorem createImage_kept (io : FileIO P F) (mk : List Nat → Option (Val P)) (w : World P F) (args : List Str) :
    Kept io w (createImage io mk w args).1 args := by
  unfold createImage
  split
  · split
    · exact .rfl'
    · split
      · exact .rfl'
      · exact kept_save io w _ (by simp)
  · exact .rfl'

theorem rand_kept {σ : Type} (io : FileIO Pay F) (gen : Str → σ → ℚ × σ) (seed : σ) (w : World Pay F)
    (args : List Str) : Kept io w (randCmd io gen seed w args).1 args := by
  unfold randCmd
  split
  · split
    · exact .rfl'
    · split
      · split
        · exact kept_save io w _ (by simp)
        · exact .rfl'
        · exact .rfl'
      · exact .rfl'
  · exact .rfl'

theorem write_kept (io : FileIO P F) (w : World P F) (args : List Str) : Kept io w (writeCmd io w args).1 args := by
  unfold writeCmd
  split
  · split
    · split
      · exact .rfl'
      · exact .rfl'
      · exact kept_save io w _ (by simp)
    · exact .rfl'
  · exact .rfl'

theorem multiply_kept (io : FileIO P F) (mul : Str → Option (Val P → Option (Val P))) (w : World P F)
    (args : List Str) : Kept io w (multiplyCmd io mul w args).1 args := by
  unfold multiplyCmd metaTransform
  simp only
  split
  · exact .rfl'
  · split
    · rename_i inArg outArg rest hf
      split
      · exact .rfl'
      · split
        · exact .rfl'
        · exact .rfl'
        · split
          · exact .rfl'
          · split
            · exact kept_save io w _ (mem_of_filtered (by rw [hf]; simp))
            · exact .rfl'
    · exact .rfl'

/-! ## Commands that change several variables, or one with a default name -/

theorem removeAll_same (x : Str) : ∀ (args : List Str) (ws : Workspace (Val P)), (∀ a ∈ args, ¬ MayName a x) →
    (removeAll ws args).retrieveAny x = ws.retrieveAny x
  | [], _, _ => rfl
  | a :: as, ws, h => by
    unfold removeAll
    rw [removeAll_same x as _ fun b hb => h b (List.mem_cons_of_mem _ hb)]
    split
    · rename_i hv
      have hne : sanitize x ≠ sanitize (varName a) := by
        intro e
        refine h a (by simp) (.inr (.inl ⟨varName a, isVar_eq hv, ?_⟩))
        rw [sameVar_iff]; exact e.symm
      unfold Workspace.remove Workspace.retrieveAny
      split
      · simp only [Workspace.find_erase]
        rw [if_neg]
        first
          | exact hne
          | exact fun e => hne e.symm
      · rfl
    · rfl

theorem remove_discreet : Discreet (ofPlain (removeCmd : Handler (World P F))) := by
  refine ⟨fun _ => rfl, fun w args w' c e x hx => ?_⟩
  simp only [ofPlain, Prod.mk.injEq, Option.some.injEq] at e
  rw [← e.1]
  unfold removeCmd
  split
  · rename_i ha
    exact absurd (.inl (by decide)) (hx sAll (by rw [ha]; simp))
  · exact removeAll_same x args w.ws hx

theorem rename_discreet : Discreet (ofPlain (renameCmd : Handler (World P F))) := by
  refine ⟨fun _ => rfl, fun w args w' c e x hx => ?_⟩
  simp only [ofPlain, Prod.mk.injEq, Option.some.injEq] at e
  rw [← e.1]
  unfold renameCmd
  split
  · rename_i old new rest
    split
    · rfl
    · rename_i hv
      simp only [Bool.or_eq_true, Bool.not_eq_eq_eq_not, Bool.not_true, not_or, Bool.not_eq_false] at hv
      have ne : ∀ a ∈ old :: new :: rest, isVar a = true → sanitize x ≠ sanitize (varName a) := by
        intro a ha hva e
        refine hx a ha (.inr (.inl ⟨varName a, isVar_eq hva, ?_⟩))
        rw [sameVar_iff]; exact e.symm
      have h1 := ne old (by simp) hv.1
      have h2 := ne new (by simp) hv.2
      unfold Workspace.rename Workspace.retrieveAny
      split
      · simp only [Workspace.find_erase]
        rw [if_neg (by first | exact h1 | exact fun e => h1 e.symm)]
        unfold Workspace.assign
        have h2' : ¬ sanitize (varName new) = sanitize x := fun e => h2 e.symm
        show Workspace.find ⟨(_, _) :: (w.ws.erase _).store⟩ _ = _
        have := Workspace.find_erase w.ws (sanitize (varName new)) (sanitize x)
        unfold Workspace.find at this ⊢
        simp only [List.find?_cons]
        have hb : (sanitize (varName new) == sanitize x) = false := by simpa using h2'
        simp only [hb]
        rw [this]
        split
        · rename_i e; first | exact absurd e h2 | exact absurd e.symm h2
        · rfl
      · rfl
  · rfl

theorem stemOf_pathStem (s : Str) : StemOf s (pathStem s) := by
  have hsplit : s = (s.reverse.dropWhile (· != '/')).reverse ++ (s.reverse.takeWhile (· != '/')).reverse := by
    rw [← List.reverse_append, List.takeWhile_append_dropWhile, List.reverse_reverse]
  have hdir : (s.reverse.dropWhile (· != '/')).reverse = [] ∨
      ∃ d, (s.reverse.dropWhile (· != '/')).reverse = d ++ ['/'] := by
    cases hd : s.reverse.dropWhile (· != '/') with
    | nil => exact .inl rfl
    | cons c cs =>
      right
      have hc : c = '/' := by
        have := List.head?_dropWhile_not (· != '/') s.reverse
        rw [hd] at this
        simpa using this
      exact ⟨cs.reverse, by rw [hc]; simp⟩
  have hno : '/' ∉ (s.reverse.takeWhile (· != '/')).reverse := by
    rw [List.mem_reverse]
    intro h
    have := List.all_eq_true.1 List.all_takeWhile _ h
    simp at this
  unfold pathStem
  simp only
  generalize (s.reverse.takeWhile (· != '/')).reverse = f at *
  generalize (s.reverse.dropWhile (· != '/')).reverse = dir at *
  split
  · exact ⟨dir, [], by simpa using hsplit, by simpa using hno, hdir, .inl rfl⟩
  · have hf : f = (f.reverse.dropWhile (· != '.')).reverse ++ (f.reverse.takeWhile (· != '.')).reverse := by
      rw [← List.reverse_append, List.takeWhile_append_dropWhile, List.reverse_reverse]
    have plain : StemOf s f := ⟨dir, [], by simpa using hsplit, by simpa using hno, hdir, .inl rfl⟩
    unfold splitExt
    simp only
    split
    · exact plain
    · exact plain
    · rename_i c stemRev hne hd
      have hc : c = '.' := by
        have := List.head?_dropWhile_not (· != '.') f.reverse
        rw [hd] at this
        simpa using this
      rw [hd, hc] at hf
      have hf' : f = stemRev.reverse ++ ('.' :: (f.reverse.takeWhile (· != '.')).reverse) := by
        rw [List.reverse_cons, List.append_assoc] at hf
        simpa using hf
      refine ⟨dir, '.' :: (f.reverse.takeWhile (· != '.')).reverse, ?_, ?_, hdir, .inr ⟨_, rfl, ?_⟩⟩
      · rw [List.append_assoc, ← hf']; exact hsplit
      · rw [← hf']; exact hno
      · rw [List.mem_reverse]
        intro h
        have := List.all_eq_true.1 List.all_takeWhile _ h
        simp at this

theorem read_discreet (io : FileIO P F) : Discreet (ofPlain (readCmd io pathStem)) := by
  refine ⟨fun _ => rfl, fun w args w' c e x hx => ?_⟩
  simp only [ofPlain, Prod.mk.injEq, Option.some.injEq] at e
  rw [← e.1]
  unfold readCmd
  simp only
  split
  · rfl
  · rename_i inArg
    split
    · rfl
    · rfl
    · have hn : ¬ sanitize (pathStem (sanitize inArg)) = sanitize x := fun e =>
        hx inArg (by simp) (.inr (.inr ⟨_, _, means_iff.2 rfl, stemOf_pathStem _, sameVar_iff.2 e⟩))
      simp only [saveArg, isVar, varName]
      simp [Workspace.retrieveAny_put, Ne.symm hn]
  · rename_i inArg outArg rest
    split
    · rfl
    · split
      · rfl
      · rfl
      · exact (kept_save io w _ (by simp : outArg ∈ inArg :: outArg :: rest)).same x hx

theorem remove_tidy (io : FileIO P F) : Tidy io (ofPlain removeCmd) :=
  tidy_ofPlain io fun w args => by
    unfold removeCmd
    repeat' split
    all_goals rfl

theorem rename_tidy (io : FileIO P F) : Tidy io (ofPlain renameCmd) :=
  tidy_ofPlain io fun w args => by
    unfold renameCmd
    repeat' split
    all_goals rfl

theorem read_tidy (io : FileIO P F) : Tidy io (ofPlain (readCmd io pathStem)) :=
  tidy_ofPlain io fun w args => by
    have hsave : ∀ (o : Str) (v : Val P), isVar o = true → (saveArg io w o v).1.fs = w.fs := by
      intro o v h
      rw [saveArg, if_pos h]
    unfold readCmd
    simp only
    split
    · rfl
    · split
      · rfl
      · rfl
      · exact hsave _ _ rfl
    · split
      · rfl
      · rename_i hv
        split
        · rfl
        · rfl
        · exact hsave _ _ (by simpa using hv)

/-! ## The words of a line -/

theorem splitAtSep_pieces (sep : Char → Bool) (s : Str) : ∃ q qs suf, splitAtSep sep s = q :: qs ∧ s = q ++ suf ∧
    (∀ c ∈ q, sep c = false) ∧ (∀ c, suf.head? = some c → sep c = true) ∧
    ∀ p ∈ qs, ∃ pre suf, s = pre ++ p ++ suf ∧ (∀ c ∈ p, sep c = false) ∧
      (∃ c, pre.getLast? = some c ∧ sep c = true) ∧ ∀ c, suf.head? = some c → sep c = true := by
  induction s with
  | nil => exact ⟨[], [], [], rfl, rfl, by simp, by simp, by simp⟩
  | cons c cs ih =>
    obtain ⟨q, qs, suf, e, es, h1, h2, h3⟩ := ih
    have later : ∀ p ∈ qs, ∃ pre suf, c :: cs = pre ++ p ++ suf ∧ (∀ c ∈ p, sep c = false) ∧
        (∃ c, pre.getLast? = some c ∧ sep c = true) ∧ ∀ c, suf.head? = some c → sep c = true := by
      intro p hp
      obtain ⟨pre, suf, e, a1, ⟨d, hd, hs⟩, a3⟩ := h3 p hp
      refine ⟨c :: pre, suf, by rw [e]; simp, a1, ⟨d, ?_, hs⟩, a3⟩
      cases pre with
      | nil => simp at hd
      | cons a as => simpa [List.getLast?_cons_cons] using hd
    by_cases hc : sep c = true
    · refine ⟨[], q :: qs, c :: cs, ?_, rfl, by simp, ?_, ?_⟩
      · rw [splitAtSep, if_pos hc, e]
      · intro d hd
        simp only [List.head?_cons, Option.some.injEq] at hd
        subst hd; exact hc
      · intro p hp
        rcases List.mem_cons.1 hp with rfl | hp
        · exact ⟨[c], suf, by rw [es]; simp, h1, ⟨c, rfl, hc⟩, h2⟩
        · exact later p hp
    · refine ⟨c :: q, qs, suf, ?_, by rw [es]; simp, ?_, h2, later⟩
      · rw [splitAtSep, if_neg hc, e]
      · intro d hd
        rcases List.mem_cons.1 hd with rfl | hd
        · simpa using hc
        · exact h1 d hd

theorem splitAtSep_piece (sep : Char → Bool) (s p : Str) (hp : p ∈ splitAtSep sep s) : ∃ pre suf,
    s = pre ++ p ++ suf ∧ (∀ c ∈ p, sep c = false) ∧ (∀ c, pre.getLast? = some c → sep c = true) ∧
      ∀ c, suf.head? = some c → sep c = true := by
  obtain ⟨q, qs, suf, e, es, h1, h2, h3⟩ := splitAtSep_pieces sep s
  rw [e] at hp
  rcases List.mem_cons.1 hp with rfl | hp
  · exact ⟨[], suf, by simpa using es, h1, by simp, h2⟩
  · obtain ⟨pre, suf, e, a1, ⟨d, hd, hs⟩, a3⟩ := h3 p hp
    refine ⟨pre, suf, e, a1, fun c hc => ?_, a3⟩
    rw [hd] at hc
    injection hc with hc
    subst hc; exact hs

theorem separator_iff (c : Char) : Separator c ↔ isSpace c = true ∨ c = '|' := by
  simp [Separator, isSpace]
  tauto

theorem wordOf_parse (line : Str) (stage : List Str) (hs : stage ∈ parseLine line) (a : Str) (ha : a ∈ stage) :
    WordOf line a := by
  unfold parseLine at hs
  rw [List.mem_filter, List.mem_map] at hs
  obtain ⟨⟨p, hp, rfl⟩, -⟩ := hs
  unfold tokenize at ha
  rw [List.mem_filter] at ha
  obtain ⟨ha, hne⟩ := ha
  obtain ⟨pre, suf, e, h1, h2, h3⟩ := splitAtSep_piece _ _ _ hp
  obtain ⟨pre', suf', e', g1, g2, g3⟩ := splitAtSep_piece _ _ _ ha
  refine ⟨pre ++ pre', suf' ++ suf, by rw [e, e']; simp, by simpa using hne, ?_, ?_, ?_⟩
  · intro c hc
    rw [separator_iff, not_or]
    refine ⟨by rw [g1 c hc]; simp, ?_⟩
    have := h1 c (by rw [e']; simp [hc])
    simpa using this
  · intro c hc
    rw [separator_iff]
    rw [List.getLast?_append] at hc
    cases hl : pre'.getLast? with
    | none =>
      rw [hl] at hc
      right
      simpa using h2 c (by simpa using hc)
    | some d =>
      rw [hl] at hc
      simp only [Option.some_or, Option.some.injEq] at hc
      subst hc
      exact .inl (g2 d hl)
  · intro c hc
    rw [separator_iff]
    rw [List.head?_append] at hc
    cases hl : suf'.head? with
    | none =>
      rw [hl] at hc
      right
      simpa using h3 c (by simpa using hc)
    | some d =>
      rw [hl] at hc
      simp only [Option.some_or, Option.some.injEq] at hc
      subst hc
      exact .inl (g3 d hl)

theorem splitAtSep_head (sep : Char → Bool) (suf : Str) (hs : ∀ c, suf.head? = some c → sep c = true) :
    ∀ p : Str, (∀ c ∈ p, sep c = false) → ∃ rest, splitAtSep sep (p ++ suf) = p :: rest
  | [], _ => by
    cases suf with
    | nil => exact ⟨[], rfl⟩
    | cons c cs => exact ⟨_, by rw [List.nil_append, splitAtSep, if_pos (hs c rfl)]⟩
  | c :: p, h => by
    obtain ⟨rest, e⟩ := splitAtSep_head sep suf hs p fun d hd => h d (List.mem_cons_of_mem _ hd)
    refine ⟨rest, ?_⟩
    rw [List.cons_append, splitAtSep, if_neg (by simp [h c (by simp)]), e]

theorem mem_splitAtSep (sep : Char → Bool) (p suf : Str) (hp : ∀ c ∈ p, sep c = false)
    (hs : ∀ c, suf.head? = some c → sep c = true) : ∀ pre : Str, (∀ c, pre.getLast? = some c → sep c = true) →
      p ∈ splitAtSep sep (pre ++ p ++ suf) ∧ (pre ≠ [] → p ∈ (splitAtSep sep (pre ++ p ++ suf)).tail)
  | [], _ => by
    obtain ⟨rest, e⟩ := splitAtSep_head sep suf hs p hp
    refine ⟨?_, fun h => absurd rfl h⟩
    rw [List.nil_append, e]
    simp
  | c :: pre, h => by
    have key : p ∈ (splitAtSep sep (c :: pre ++ p ++ suf)).tail := by
      simp only [List.cons_append, splitAtSep]
      cases pre with
      | nil =>
        rw [if_pos (h c rfl)]
        exact (mem_splitAtSep sep p suf hp hs [] (by simp)).1
      | cons d pre =>
        obtain ⟨h1, h2⟩ := mem_splitAtSep sep p suf hp hs (d :: pre) fun e he => h e (by
          rw [List.getLast?_cons_cons]; exact he)
        split
        · exact h1
        · have := h2 (by simp)
          cases hx : splitAtSep sep (d :: pre ++ p ++ suf) with
          | nil => rw [hx] at this; cases this
          | cons s ss => rw [hx] at this; simpa using this
    exact ⟨List.mem_of_mem_tail key, fun _ => key⟩

/-- The words of a line are the words of its stages. -/
theorem parse_wordOf (line a : Str) (h : WordOf line a) : ∃ stage ∈ parseLine line, a ∈ stage := by
  obtain ⟨pre, suf, rfl, hne, ha, hpre, hsuf⟩ := h
  have h1 : pre = (pre.reverse.dropWhile (· != '|')).reverse ++ (pre.reverse.takeWhile (· != '|')).reverse := by
    rw [← List.reverse_append, List.takeWhile_append_dropWhile, List.reverse_reverse]
  have h2 : suf = suf.takeWhile (· != '|') ++ suf.dropWhile (· != '|') := List.takeWhile_append_dropWhile.symm
  have nb : ∀ (l : Str) (c : Char), c ∈ l.takeWhile (· != '|') → (c == '|') = false := by
    intro l c hc
    have := List.all_eq_true.1 List.all_takeWhile c hc
    simpa using this
  have hdrop : ∀ (l : Str) (c : Char), (l.dropWhile (· != '|')).head? = some c → (c == '|') = true := by
    intro l
    induction l with
    | nil => intro c h; simp at h
    | cons d l ih =>
      intro c h
      rw [List.dropWhile_cons] at h
      split at h
      · exact ih c h
      · rename_i hd
        simp only [List.head?_cons, Option.some.injEq] at h
        subst h
        simpa using hd
  generalize hp2 : (pre.reverse.takeWhile (· != '|')).reverse = p2 at h1
  generalize hp1 : (pre.reverse.dropWhile (· != '|')).reverse = p1 at h1
  generalize hs1 : suf.takeWhile (· != '|') = s1 at h2
  generalize hs2 : suf.dropWhile (· != '|') = s2 at h2
  have n1 : ∀ c ∈ p2, (c == '|') = false := by
    intro c hc; rw [← hp2, List.mem_reverse] at hc; exact nb _ c hc
  have n2 : ∀ c ∈ s1, (c == '|') = false := by
    intro c hc; rw [← hs1] at hc; exact nb _ c hc
  have n3 : ∀ c, p1.getLast? = some c → (c == '|') = true := by
    intro c hc; rw [← hp1, List.getLast?_reverse] at hc; exact hdrop _ c hc
  have n4 : ∀ c, s2.head? = some c → (c == '|') = true := by
    intro c hc; rw [← hs2] at hc; exact hdrop _ c hc
  have outer : p2 ++ a ++ s1 ∈ splitAtSep (· == '|') (pre ++ a ++ suf) := by
    have := (mem_splitAtSep (· == '|') (p2 ++ a ++ s1) s2 (by
      intro c hc
      rcases List.mem_append.1 hc with hc | hc
      · rcases List.mem_append.1 hc with hc | hc
        · exact n1 c hc
        · have := ha c hc
          rw [separator_iff, not_or] at this
          simpa using this.2
      · exact n2 c hc) n4 p1 n3).1
    rw [h1, h2]
    simpa using this
  have inner : a ∈ splitAtSep isSpace (p2 ++ a ++ s1) := by
    refine (mem_splitAtSep isSpace a s1 ?_ ?_ p2 ?_).1
    · intro c hc
      have := ha c hc
      rw [separator_iff, not_or] at this
      simpa using this.1
    · intro c hc
      have := hsuf c (by rw [h2, List.head?_append, hc]; rfl)
      rw [separator_iff] at this
      rcases this with h | rfl
      · exact h
      · exact absurd (n2 '|' (List.mem_of_mem_head? hc)) (by decide)
    · intro c hc
      have := hpre c (by rw [h1, List.getLast?_append, hc]; rfl)
      rw [separator_iff] at this
      rcases this with h | rfl
      · exact h
      · exact absurd (n1 '|' (List.mem_of_getLast? hc)) (by decide)
  have hmem : a ∈ tokenize (p2 ++ a ++ s1) := by
    unfold tokenize
    rw [List.mem_filter]
    exact ⟨inner, by simpa using hne⟩
  refine ⟨tokenize (p2 ++ a ++ s1), ?_, hmem⟩
  unfold parseLine
  rw [List.mem_filter]
  refine ⟨List.mem_map_of_mem outer, ?_⟩
  simp only [ne_eq, decide_not, Bool.not_eq_eq_eq_not, Bool.not_true, decide_eq_false_iff_not]
  intro e
  rw [e] at hmem
  cases hmem

/-! ## The words of the commands that are executed -/

/-- Every word of the command has the property, and its name the other one. -/
def Has (Q R : Str → Prop) (c : Cmd) : Prop := Q c.name ∧ ∀ a ∈ c.args, R a

theorem mem_insertAt {l : List Str} {n : Nat} {x a : Str} (h : a ∈ insertAt l n x) : a = x ∨ a ∈ l := by
  unfold insertAt at h
  rw [List.mem_append, List.mem_cons] at h
  rcases h with h | h | h
  · exact .inr (List.mem_of_mem_take h)
  · exact .inl h
  · exact .inr (List.mem_of_mem_drop h)

theorem mem_wireArgs {s : Schema} {prev next : Str} {typed : List Str} {a : Str}
    (h : a ∈ wireArgs s prev next typed) : a ∈ typed ∨ (a = prev ∧ prev ≠ []) ∨ (a = next ∧ next ≠ []) := by
  have h1 : ∀ {b}, b ∈ (match s.inIdx with
      | some i => if prev ≠ [] then insertAt typed i prev else typed
      | none => typed) → b ∈ typed ∨ (b = prev ∧ prev ≠ []) := by
    intro b hb
    split at hb
    · split at hb
      · rename_i hp
        rcases mem_insertAt hb with e | e
        · exact .inr ⟨e, hp⟩
        · exact .inl e
      · exact .inl hb
    · exact .inl hb
  unfold wireArgs at h
  simp only at h
  split at h
  · split at h
    · rename_i hn
      rcases mem_insertAt h with e | e
      · exact .inr (.inr ⟨e, hn⟩)
      · rcases h1 e with e | e
        · exact .inl e
        · exact .inr (.inl e)
    · rcases h1 h with e | e
      · exact .inl e
      · exact .inr (.inl e)
  · rcases h1 h with e | e
    · exact .inl e
    · exact .inr (.inl e)

theorem build_has {Q R : Str → Prop} (schemas : Str → Option Schema) (final : Str) (hf : final ≠ [] → R final)
    (hpipe : ∀ i, R (pipeVar i)) :
    ∀ (segs : List (List Str)) (i : Nat) (prev : Str) (cmds : List Cmd), (prev ≠ [] → R prev) →
      (∀ seg ∈ segs, seg ≠ [] ∧ (∀ a, seg.head? = some a → Q a) ∧ ∀ a ∈ seg, R a) →
      build schemas final segs i prev = .ok cmds → ∀ c ∈ cmds, Has Q R c
  | [], _, _, cmds, _, _, h => by
    simp only [build, Built.ok.injEq] at h
    subst h
    simp
  | seg :: segs, i, prev, cmds, hp, hs, h => by
    unfold build at h
    simp only at h
    split at h
    · cases h
    · split at h
      · cases h
      · rename_i sch _
        have hnext : (if segs ≠ [] then pipeVar i else final) ≠ [] → R (if segs ≠ [] then pipeVar i else final) := by
          split
          · exact fun _ => hpipe i
          · exact hf
        split at h
        · rename_i rest hb
          simp only [Built.ok.injEq] at h
          subst h
          have ih := build_has schemas final hf hpipe segs (i + 1) _ rest hnext
            (fun s h => hs s (List.mem_cons_of_mem _ h)) hb
          intro c hc
          rcases List.mem_cons.1 hc with rfl | hc
          · obtain ⟨hne, hq, hr⟩ := hs seg (by simp)
            refine ⟨?_, ?_⟩
            · cases seg with
              | nil => exact absurd rfl hne
              | cons a as => exact hq a rfl
            · intro a ha
              rcases mem_wireArgs ha with h | ⟨rfl, h⟩ | ⟨rfl, h⟩
              · exact hr a (List.mem_of_mem_drop h)
              · exact hp h
              · exact hnext h
          · exact ih c hc
        · rename_i hnot
          exact (hnot _ h).elim

theorem getIo_has {R : Str → Prop} (he : R []) (schemas : Str → Option Schema) (c : Cmd) (hc : ∀ a ∈ c.args, R a) :
    R (getIo schemas c).1 ∧ R (getIo schemas c).2 := by
  have hget : ∀ (l : List Str) (i : Nat), (∀ a ∈ l, R a) → R (l[i]?.getD []) := by
    intro l i hl
    cases h : l[i]? with
    | none => exact he
    | some a => exact hl a (List.mem_of_getElem? h)
  have hlog : ∀ i, R (logicalArg c.args i) := fun i => hget _ i fun a ha => hc a (mem_of_filtered ha)
  unfold getIo
  split
  · exact ⟨hget _ _ hc, hget _ _ hc⟩
  · split
    · split
      · exact ⟨hlog _, hlog _⟩
      · exact ⟨he, he⟩
    · exact ⟨he, he⟩

theorem updateArg_mem {v : Str} : ∀ {l : List Str} {i : Nat} {l' : List Str}, updateArg l i v = some l' →
    ∀ a ∈ l', a = v ∨ a ∈ l
  | [], _, _, h => by simp [updateArg] at h
  | b :: l, i, l', h => by
    unfold updateArg at h
    split at h
    · rw [Option.map_eq_some_iff] at h
      obtain ⟨m, hm, rfl⟩ := h
      intro a ha
      rcases List.mem_cons.1 ha with rfl | ha
      · exact .inr (by simp)
      · rcases updateArg_mem hm a ha with h | h
        · exact .inl h
        · exact .inr (List.mem_cons_of_mem _ h)
    · split at h
      · injection h with h
        subst h
        intro a ha
        rcases List.mem_cons.1 ha with rfl | ha
        · exact .inl rfl
        · exact .inr (List.mem_cons_of_mem _ ha)
      · rw [Option.map_eq_some_iff] at h
        obtain ⟨m, hm, rfl⟩ := h
        intro a ha
        rcases List.mem_cons.1 ha with rfl | ha
        · exact .inr (by simp)
        · rcases updateArg_mem hm a ha with h | h
          · exact .inl h
          · exact .inr (List.mem_cons_of_mem _ h)

theorem updateIn_has {Q R : Str → Prop} {schemas : Str → Option Schema} {c c' : Cmd} {v : Str} (hv : R v)
    (hc : Has Q R c) (h : updateIn schemas c v = some c') : Has Q R c' := by
  unfold updateIn at h
  split at h
  · injection h with h
    subst h
    refine ⟨hc.1, fun a ha => ?_⟩
    rcases List.mem_or_eq_of_mem_set ha with h | rfl
    · exact hc.2 a h
    · exact hv
  · split at h
    · rw [Option.map_eq_some_iff] at h
      obtain ⟨m, hm, rfl⟩ := h
      refine ⟨hc.1, fun a ha => ?_⟩
      rcases updateArg_mem hm a ha with rfl | h
      · exact hv
      · exact hc.2 a h
    · cases h

theorem updateOut_has {Q R : Str → Prop} {schemas : Str → Option Schema} {c c' : Cmd} {v : Str} (hv : R v)
    (hc : Has Q R c) (h : updateOut schemas c v = some c') : Has Q R c' := by
  unfold updateOut at h
  split at h
  · injection h with h
    subst h
    refine ⟨hc.1, fun a ha => ?_⟩
    rcases List.mem_or_eq_of_mem_set ha with h | rfl
    · exact hc.2 a h
    · exact hv
  · split at h
    · rw [Option.map_eq_some_iff] at h
      obtain ⟨m, hm, rfl⟩ := h
      refine ⟨hc.1, fun a ha => ?_⟩
      rcases updateArg_mem hm a ha with rfl | h
      · exact hv
      · exact hc.2 a h
    · cases h

section
variable {Q R : Str → Prop} (hcopy : Q sCopy) (he : R []) (isOne : Str → Bool) (schemas : Str → Option Schema)
include hcopy he

theorem rule1_has (c : Cmd) (hc : Has Q R c) : Has Q R (rule1 isOne schemas c).1 := by
  unfold rule1
  split
  · have := getIo_has he schemas c hc.2
    exact ⟨hcopy, fun a ha => by
      rcases List.mem_cons.1 ha with rfl | ha
      · exact this.1
      · rw [List.mem_singleton] at ha; subst ha; exact this.2⟩
  · exact hc

theorem pairRule_has (c1 c2 : Cmd) (h1 : Has Q R c1) (h2 : Has Q R c2) :
    (∀ c, pairRule schemas c1 c2 = .collapse c → Has Q R c) ∧ ∀ c, pairRule schemas c1 c2 = .keep c → Has Q R c := by
  have g1 := getIo_has he schemas c1 h1.2
  have g2 := getIo_has he schemas c2 h2.2
  unfold pairRule
  simp only
  split
  · split
    · refine ⟨fun c h => ?_, fun c h => (by cases h)⟩
      injection h with h
      subst h
      exact ⟨hcopy, fun a ha => by
        rcases List.mem_cons.1 ha with rfl | ha
        · exact g1.1
        · rw [List.mem_singleton] at ha; subst ha; exact g2.2⟩
    · split
      · rename_i c2' hu
        refine ⟨fun c h => (by cases h), fun c h => ?_⟩
        injection h with h
        subst h
        split at hu
        · exact updateIn_has g1.1 h2 hu
        · cases hu
      · split
        · rename_i c1' hu
          refine ⟨fun c h => (by cases h), fun c h => ?_⟩
          injection h with h
          subst h
          split at hu
          · exact updateOut_has g2.2 h1 hu
          · cases hu
        · exact ⟨fun c h => (by cases h), fun c h => (by cases h)⟩
  · exact ⟨fun c h => (by cases h), fun c h => (by cases h)⟩

theorem pass_has : ∀ (cs : List Cmd) (pend : Option Cmd), (∀ c ∈ pend, Has Q R c) → (∀ c ∈ cs, Has Q R c) →
    ∀ c ∈ (pass isOne schemas pend cs).1, Has Q R c := by
  intro cs
  induction hn : cs.length using Nat.strongRecOn generalizing cs with
  | _ n ih =>
    have main : ∀ (c : Cmd) (cs : List Cmd), cs.length ≤ n → Has Q R c → (∀ c ∈ cs, Has Q R c) →
        (∀ cs' : List Cmd, cs'.length < cs.length → ∀ pend : Option Cmd, (∀ c ∈ pend, Has Q R c) →
          (∀ c ∈ cs', Has Q R c) → ∀ c ∈ (pass isOne schemas pend cs').1, Has Q R c) →
        ∀ d ∈ (pass isOne schemas (some c) cs).1, Has Q R d := by
      intro c cs _ hc hcs ih d hd
      have hr := rule1_has hcopy he isOne schemas c hc
      cases cs with
      | nil =>
        simp only [pass, List.mem_singleton] at hd
        subst hd; exact hr
      | cons c2 cs =>
        have h2 := hcs c2 (by simp)
        have hrest : ∀ c ∈ cs, Has Q R c := fun c h => hcs c (List.mem_cons_of_mem _ h)
        have hp := pairRule_has hcopy he schemas _ c2 hr h2
        unfold pass at hd
        simp only at hd
        split at hd
        · rename_i cp hcp
          rcases List.mem_cons.1 hd with rfl | hd
          · exact hp.1 _ hcp
          · exact ih cs (by simp) none (by simp) hrest d hd
        · rename_i q hq
          exact ih cs (by simp) (some q) (by intro c h; cases h; exact hp.2 _ hq) hrest d hd
        · rcases List.mem_cons.1 hd with rfl | hd
          · exact hr
          · exact ih cs (by simp) (some c2) (by intro c h; cases h; exact h2) hrest d hd
    intro pend hpend hcs d hd
    cases pend with
    | some c =>
      exact main c cs hn.le (hpend c rfl) hcs (fun cs' hl pend hp h => ih _ (hn ▸ hl) cs' rfl pend hp h) d hd
    | none =>
      cases cs with
      | nil => simp [pass] at hd
      | cons c cs =>
        unfold pass at hd
        have hl : cs.length < n := by rw [← hn]; simp
        exact ih _ hl cs rfl (some c) (by intro c' h; cases h; exact hcs c (by simp))
          (fun c h => hcs c (List.mem_cons_of_mem _ h)) d hd

theorem optimize_has (p : List Cmd) (hp : ∀ c ∈ p, Has Q R c) : ∀ c ∈ optimize isOne schemas p, Has Q R c := by
  have key : ∀ (n : Nat) (p q : List Cmd), (∀ c ∈ p, Has Q R c) → optimizeFuel isOne schemas n p = some q →
      ∀ c ∈ q, Has Q R c := by
    intro n
    induction n with
    | zero => intro p q _ h; cases h
    | succ n ih =>
      intro p q hp h
      have := pass_has hcopy he isOne schemas p none (by simp) hp
      unfold optimizeFuel at h
      split at h
      · exact ih _ q this h
      · injection h with h
        subst h
        exact this
  unfold optimize
  cases h : optimizeFuel isOne schemas (2 * p.length + 1) p with
  | none => exact hp
  | some q => exact key _ p q hp h

end

/-! ## Executing -/

section
variable (reg : Registry (Option (World P F))) (Q R : Str → Prop) (S : World P F → World P F → Prop) (hrefl : ∀ w, S w w)
  (htrans : ∀ a b c, S a b → S b c → S a c)
include hrefl htrans

theorem runCmds_respects (hQ : ∀ name, Q name → ∀ info, reg.lookup name = some info → Respects R S info.handler) :
    ∀ (cs : List Cmd) (s : Option (World P F)) (w' : World P F) (b : Bool), (∀ c ∈ cs, Has Q R c) →
      runCmds reg cs s = (some w', b) → ∃ w, s = some w ∧ S w w'
  | [], s, w', b, _, h => by
    simp only [runCmds, Prod.mk.injEq] at h
    exact ⟨w', h.1, hrefl _⟩
  | c :: cs, s, w', b, hc, h => by
    obtain ⟨hq, hr⟩ := hc c (by simp)
    have hrest : ∀ c ∈ cs, Has Q R c := fun c h => hc c (List.mem_cons_of_mem _ h)
    -- one command
    have step : ∀ s1 w1 rep, reg.execute s c.name c.args = (s1, rep) → s1 = some w1 → ∃ w, s = some w ∧ S w w1 := by
      intro s1 w1 rep he hs1
      unfold Registry.execute at he
      split at he
      · rename_i info hi
        have hd := hQ _ hq info hi
        have hone : ∀ ctl, info.handler s c.args = (s1, ctl) → ∃ w, s = some w ∧ S w w1 := by
          intro ctl hh
          cases s with
          | none =>
            have := hd.1 c.args
            rw [hh, hs1] at this
            cases this
          | some w =>
            rw [hs1] at hh
            exact ⟨w, rfl, hd.2 w c.args w1 ctl hh hr⟩
        split at he
        all_goals
          rename_i s2 hh
          simp only [Prod.mk.injEq] at he
          rw [he.1] at hh
          exact hone _ hh
      · simp only [Prod.mk.injEq] at he
        exact ⟨w1, by rw [he.1, hs1], hrefl _⟩
    unfold runCmds at h
    split at h
    · rename_i s1 he
      simp only [Prod.mk.injEq] at h
      exact step s1 w' _ he h.1
    · rename_i s1 rep _ he
      obtain ⟨w1, hw1, e1⟩ := runCmds_respects hQ cs s1 w' b hrest h
      obtain ⟨w, hw, e⟩ := step s1 w1 _ he hw1
      exact ⟨w, hw, htrans _ _ _ e e1⟩

omit hrefl htrans in
theorem Has.mono {Q' : Str → Prop} (h : ∀ a, Q a → Q' a) {c : Cmd} (hc : Has Q R c) : Has Q' R c := ⟨h _ hc.1, hc.2⟩

theorem runLine_respects (isOne : Str → Bool) (line : Str) (s : Option (World P F)) (w' : World P F) (n : Next)
    (hreg : ∀ name info, WordOf line name ∨ name = sCopy → reg.lookup name = some info → Respects R S info.handler)
    (he : R []) (hpipe : ∀ i, R (pipeVar i)) (hline : ∀ a, WordOf line a → R a)
    (h : runLine isOne reg line s = (some w', n)) : ∃ w, s = some w ∧ S w w' := by
  have hseg : ∀ seg ∈ parseLine line, seg ≠ [] ∧ (∀ a, seg.head? = some a → WordOf line a ∨ a = sCopy) ∧
      ∀ a ∈ seg, R a := fun seg hs =>
    ⟨by
      unfold parseLine at hs
      simpa using (List.mem_filter.1 hs).2,
     fun a ha => .inl (wordOf_parse line seg hs a (List.mem_of_mem_head? ha)),
     fun a ha => hline a (wordOf_parse line seg hs a ha)⟩
  have hsub : ∀ seg ∈ (splitFinal (parseLine line)).1, seg ∈ parseLine line := by
    intro seg
    unfold splitFinal
    split
    · split
      · exact fun h => List.dropLast_subset _ h
      · exact id
    · exact id
  have hfin : (splitFinal (parseLine line)).2 ≠ [] → R (splitFinal (parseLine line)).2 := by
    unfold splitFinal
    split
    · rename_i v hv
      split
      · exact fun _ => (hseg _ (List.mem_of_getLast? hv)).2.2 v (by simp)
      · exact fun h => absurd rfl h
    · exact fun h => absurd rfl h
  have keep : ∀ m : Next, (s, m) = (some w', n) → ∃ w, s = some w ∧ S w w' := by
    intro m h
    injection h with h _
    exact ⟨w', h, hrefl _⟩
  unfold runLine at h
  simp only at h
  split at h
  · exact keep _ h
  · split at h
    · exact keep _ h
    · exact keep _ h
    · rename_i cmds hb
      have hc := build_has (Q := fun a => WordOf line a ∨ a = sCopy) reg.getSchema _ hfin
        hpipe _ 0 [] cmds (fun h => absurd rfl h) (fun seg hs => hseg seg (hsub seg hs)) hb
      have ho := optimize_has (Q := fun a => WordOf line a ∨ a = sCopy) (R := R) (.inr rfl) he
        isOne reg.getSchema cmds hc
      have run : ∀ b, runCmds reg (optimize isOne reg.getSchema cmds) s = (some w', b) → ∃ w, s = some w ∧ S w w' :=
        fun b hr => runCmds_respects reg (fun a => WordOf line a ∨ a = sCopy) R S hrefl htrans
          (fun name hq info hi => hreg name info hq hi) _ _ w' b ho hr
      split at h
      all_goals
        rename_i hr
        injection h with h _
        subst h
        exact run _ hr

theorem runLines_respects (isOne : Str → Bool)
    (hreg : ∀ name info, reg.lookup name = some info → Respects R S info.handler) (he : R [])
    (hpipe : ∀ i, R (pipeVar i)) :
    ∀ (lines : List Str) (s : Option (World P F)) (w' : World P F) (n : Next),
      (∀ l ∈ lines, ∀ a, WordOf l a → R a) → runLines isOne reg lines s = (some w', n) → ∃ w, s = some w ∧ S w w'
  | [], s, w', n, _, h => by
    simp only [runLines, Prod.mk.injEq] at h
    exact ⟨w', h.1, hrefl _⟩
  | l :: ls, s, w', n, hl, h => by
    unfold runLines at h
    have hone : ∀ w1 n1, runLine isOne reg l s = (some w1, n1) → ∃ w, s = some w ∧ S w w1 := fun w1 n1 h1 =>
      runLine_respects reg R S hrefl htrans isOne l s w1 n1 (fun name info _ hi => hreg name info hi) he hpipe
        (hl l (by simp)) h1
    split at h
    · rename_i s1 h1
      obtain ⟨w1, hw1, e1⟩ := runLines_respects isOne hreg he hpipe ls s1 w' n
        (fun l h => hl l (List.mem_cons_of_mem _ h)) h
      rw [hw1] at h1
      obtain ⟨w, hw, e⟩ := hone w1 _ h1
      exact ⟨w, hw, htrans _ _ _ e e1⟩
    · exact hone w' n h

end

end TinyDIP.Props
