import Verif.Lemmas.CliNum

/-!
# Property C71: element commands on containers
-/

namespace TinyDIP.Props

open TinyDIP.Cli

variable {P F : Type}

theorem onlyVar_put (w : World P F) (d : Str) (v : Val P) :
    OnlyVar w { w with ws := w.ws.put d v } d := by
  refine ⟨rfl, fun m hm => ?_⟩
  rw [sameVar_iff] at hm
  simp [Workspace.retrieveAny_put, hm]

theorem loadArg_var (io : FileIO P F) (check : Ty → Bool) (w : World P F) (s : Str) (v : Val P)
    (h : w.ws.retrieveAny s = some v) (hc : check v.ty = true) :
    loadArg io check w ('$' :: s) = .ok (some v) := by
  unfold Workspace.retrieveAny at h
  simp [loadArg, isVar, varName, h, hc]

/-- `get_element $s $d i` stores the element with index `i`, in every container except
`std::vector<bool>`; an index out of range changes nothing.
Full statement: also for `std::vector<bool>`; see `C71_get_violation`. -/
theorem C71_get_partial (io : FileIO P F) (w : World P F) (s d : Str) (k : Kind) (e : Ty)
    (items : List (Val P)) (i : Nat) (more : List Str)
    (hs : w.ws.retrieveAny s = some (.cont k e items)) (ht : ContainerTy k e)
    (hi : i < 2 ^ 64) (hb : ¬ (k = .vector ∧ e = .num .bool)) :
    (∀ x, items[i]? = some x → ∃ w', getElement io w (('$' :: s) :: ('$' :: d) :: toStr i :: more) =
        (w', .returned) ∧ w'.ws.retrieveAny d = some x ∧ OnlyVar w w' d) ∧
      (items.length ≤ i →
        getElement io w (('$' :: s) :: ('$' :: d) :: toStr i :: more) = (w, .returned)) := by
  have hl := loadArg_var io isAllContainer w s _ hs (containerTy_iff.1 ht)
  constructor
  · intro x hx
    have hel : elementStored k e x = x := by
      unfold elementStored
      split
      · exact absurd ⟨rfl, rfl⟩ hb
      · rfl
    refine ⟨{ w with ws := w.ws.put d x }, ?_, ?_, onlyVar_put w d x⟩
    · simp [getElement, isVar, parseSize_toStr hi, hl, hx, hel, varName]
    · simp [Workspace.retrieveAny_put]
  · intro hlen
    have hx : items[i]? = none := List.getElem?_eq_none hlen
    simp [getElement, isVar, parseSize_toStr hi, hl, hx]

/-- A vector of two images. -/
def wImages : World Nat Unit :=
  ⟨⟨[(['c'], .cont .vector tyDouble [.atom tyDouble 7, .atom tyDouble 8])]⟩, ()⟩

example : wImages.ws.retrieveAny ['c'] =
      some (.cont .vector tyDouble [.atom tyDouble 7, .atom tyDouble 8]) ∧
    ContainerTy .vector tyDouble ∧ ¬ (Kind.vector = .vector ∧ tyDouble = .num .bool) := by
  exact ⟨rfl, Or.inr ⟨by simp, Or.inl ⟨.double, rfl⟩⟩, by decide⟩

/-- From a `std::vector<bool>` the command stores an object that is not a `bool`: no command that
looks for a number finds it. -/
theorem C71_get_violation (io : FileIO P F) (w : World P F) (s d : Str) (p : P)
    (hs : w.ws.retrieveAny s = some (.cont .vector (.num .bool) [.atom (.num .bool) p])) :
    ∃ w', getElement io w [('$' :: s), ('$' :: d), toStr 0] = (w', .returned) ∧
      ∀ n : Num, w'.ws.retrieve (.num n) d = none := by
  have hl := loadArg_var io isAllContainer w s _ hs (by rfl)
  refine ⟨{ w with ws := w.ws.put d (.atom .boolRef p) }, ?_, fun n => ?_⟩
  · simp [getElement, isVar, parseSize_toStr (n := 0) (by decide), hl, elementStored, varName]
  · unfold Workspace.retrieve
    rw [Workspace.find_put]
    simp [Val.ty]

example : (⟨[(['b'], .cont .vector (.num .bool) [.atom (.num .bool) 1])]⟩ : Workspace (Val Nat)).retrieveAny
    ['b'] = some (.cont .vector (.num .bool) [.atom (.num .bool) 1]) := rfl

/-- `erase_element $s $d i` stores the container without the element with index `i`; an index out
of range changes nothing. -/
theorem C71_erase (io : FileIO P F) (w : World P F) (s d : Str) (k : Kind) (e : Ty)
    (items : List (Val P)) (i : Nat) (more : List Str)
    (hs : w.ws.retrieveAny s = some (.cont k e items)) (ht : ContainerTy k e)
    (hk : ∀ n, k ≠ .array n) (hi : i < 2 ^ 64) :
    (∀ pre x post, items = pre ++ x :: post → pre.length = i →
      ∃ w', eraseElement io w (('$' :: s) :: ('$' :: d) :: toStr i :: more) = (w', .returned) ∧
        w'.ws.retrieveAny d = some (.cont k e (pre ++ post)) ∧ OnlyVar w w' d) ∧
      (items.length ≤ i →
        eraseElement io w (('$' :: s) :: ('$' :: d) :: toStr i :: more) = (w, .returned)) := by
  have hl := loadArg_var io isAllContainer w s _ hs (containerTy_iff.1 ht)
  have hr : k.resizable = true := by
    cases k with
    | array n => exact absurd rfl (hk n)
    | _ => rfl
  constructor
  · rintro pre x post rfl rfl
    refine ⟨{ w with ws := w.ws.put d (.cont k e (pre ++ post)) }, ?_, ?_, onlyVar_put w d _⟩
    · simp [eraseElement, isVar, parseSize_toStr hi, hl, hr, varName, List.eraseIdx_append]
      intro h; omega
    · simp [Workspace.retrieveAny_put]
  · intro hlen
    simp [eraseElement, isVar, parseSize_toStr hi, hl, hlen]

example : ∀ n, Kind.vector ≠ .array n := by intro n; simp

/-- `append_element $s $x $d` stores the container with the element added at the end; an element
of another type, or no such variable, changes nothing. -/
theorem C71_append (io : FileIO P F) (w : World P F) (s x d : Str) (k : Kind) (e : Ty)
    (items : List (Val P)) (more : List Str)
    (hs : w.ws.retrieveAny s = some (.cont k e items)) (ht : ContainerTy k e)
    (hk : ∀ n, k ≠ .array n) :
    (∀ v, w.ws.retrieveAny x = some v → v.ty = e →
      ∃ w', appendElement io w (('$' :: s) :: ('$' :: x) :: ('$' :: d) :: more) = (w', .returned) ∧
        w'.ws.retrieveAny d = some (.cont k e (items ++ [v])) ∧ OnlyVar w w' d) ∧
      ((∀ v, w.ws.retrieveAny x = some v → v.ty ≠ e) →
        appendElement io w (('$' :: s) :: ('$' :: x) :: ('$' :: d) :: more) = (w, .returned)) := by
  have hl := loadArg_var io isAllContainer w s _ hs (containerTy_iff.1 ht)
  have hr : k.resizable = true := by
    cases k with
    | array n => exact absurd rfl (hk n)
    | _ => rfl
  unfold Workspace.retrieveAny
  constructor
  · intro v hv hte
    refine ⟨{ w with ws := w.ws.put d (.cont k e (items ++ [v])) }, ?_, ?_, onlyVar_put w d _⟩
    · simp [appendElement, isVar, hl, hr, varName, Workspace.retrieve, hv, hte]
    · simp [Workspace.find_put]
  · intro h
    have : w.ws.retrieve e x = none := by
      unfold Workspace.retrieve
      cases hf : w.ws.find (sanitize x) with
      | none => rfl
      | some v => simp [h v hf]
    simp [appendElement, isVar, hl, hr, varName, this]

example : ∃ v, (⟨⟨[(['x'], .atom tyDouble 9)]⟩, ()⟩ : World Nat Unit).ws.retrieveAny ['x'] = some v ∧
    v.ty = tyDouble := ⟨_, rfl, rfl⟩

/-- `create_container $s $d` stores a vector holding the value of `$s`. -/
theorem C71_create (io : FileIO P F) (w : World P F) (s d : Str) (v : Val P) (more : List Str)
    (hs : w.ws.retrieveAny s = some v) (ht : DataTy v.ty) :
    ∃ w', createContainer io w (('$' :: s) :: ('$' :: d) :: more) = (w', .returned) ∧
      w'.ws.retrieveAny d = some (.cont .vector v.ty [v]) ∧ OnlyVar w w' d := by
  have hl := loadArg_var io isMasterData w s _ hs (dataTy_iff.1 ht)
  refine ⟨{ w with ws := w.ws.put d (.cont .vector v.ty [v]) }, ?_, ?_, onlyVar_put w d _⟩
  · simp [createContainer, isVar, hl, varName]
  · simp [Workspace.retrieveAny_put]

example : DataTy tyDouble := Or.inl (Or.inl ⟨.double, rfl⟩)

/-- An element command whose source does not exist or is no container of numbers or images (for instance an image, or
an array of images) changes nothing; so does one whose index is not a number, or whose output is no variable. -/
theorem C71_reject (io : FileIO P F) (w : World P F) (s : Str) (outArg idxArg : Str) (more : List Str)
    (h : parseSize idxArg = none ∨
      (∀ k e items, w.ws.retrieveAny s = some (.cont k e items) → ¬ ContainerTy k e) ∨ isVar outArg = false) :
    (getElement io w (('$' :: s) :: outArg :: idxArg :: more)).1 = w ∧
      (eraseElement io w (('$' :: s) :: outArg :: idxArg :: more)).1 = w := by
  have hl : (∀ k e items, w.ws.retrieveAny s = some (.cont k e items) → ¬ ContainerTy k e) →
      loadArg io isAllContainer w ('$' :: s) = .ok none ∨
        ∃ t p, loadArg io isAllContainer w ('$' :: s) = .ok (some (.atom t p)) := by
    intro hh
    unfold Workspace.retrieveAny at hh
    cases hf : w.ws.find (sanitize s) with
    | none => simp [loadArg, isVar, varName, hf]
    | some v =>
      cases v with
      | atom t p => by_cases ht : isAllContainer t = true <;> simp [loadArg, isVar, varName, hf, Val.ty, ht]
      | cont k e items =>
        have ht : isAllContainer (.cont k e) = false := by simpa [containerTy_iff] using hh k e items hf
        simp [loadArg, isVar, varName, hf, Val.ty, ht]
  rcases h with h | h | h
  · constructor
    · unfold getElement; simp only [h]; split <;> rfl
    · unfold eraseElement; simp only [h]; split <;> rfl
  · rcases hl h with hl | ⟨t, p, hl⟩
    all_goals
      constructor
      · unfold getElement; simp only [hl]; split
        · rfl
        · cases parseSize idxArg <;> rfl
      · unfold eraseElement; simp only [hl]; split
        · rfl
        · cases parseSize idxArg <;> rfl
  · constructor
    · simp [getElement, h]
    · simp [eraseElement, h]

/-- `append_element` and `erase_element` leave everything as it is when the source has a fixed length or is no
container, and `create_container` when the source is neither image nor container of numbers. -/
theorem C71_reject_more (io : FileIO P F) (w : World P F) (s : Str) (a b : Str) (more : List Str) :
    ((∀ k e items, w.ws.retrieveAny s = some (.cont k e items) → ContainerTy k e → ∃ n, k = .array n) →
      (appendElement io w (('$' :: s) :: a :: b :: more)).1 = w ∧
        (eraseElement io w (('$' :: s) :: a :: b :: more)).1 = w) ∧
    ((∀ v, w.ws.retrieveAny s = some v → ¬ DataTy v.ty) →
      (createContainer io w (('$' :: s) :: a :: more)).1 = w) := by
  constructor
  · intro hh
    have hl : loadArg io isAllContainer w ('$' :: s) = .ok none ∨
        (∃ t p, loadArg io isAllContainer w ('$' :: s) = .ok (some (.atom t p))) ∨
        ∃ n e items, loadArg io isAllContainer w ('$' :: s) = .ok (some (.cont (.array n) e items)) := by
      unfold Workspace.retrieveAny at hh
      cases hf : w.ws.find (sanitize s) with
      | none => simp [loadArg, isVar, varName, hf]
      | some v =>
        cases v with
        | atom t p => by_cases ht : isAllContainer t = true <;> simp [loadArg, isVar, varName, hf, Val.ty, ht]
        | cont k e items =>
          by_cases ht : isAllContainer (.cont k e) = true
          · obtain ⟨n, rfl⟩ := hh k e items hf (containerTy_iff.2 ht)
            exact Or.inr (Or.inr ⟨n, e, items, by simp [loadArg, isVar, varName, hf, Val.ty, ht]⟩)
          · simp [loadArg, isVar, varName, hf, Val.ty, ht]
    rcases hl with hl | ⟨t, p, hl⟩ | ⟨n, e, items, hl⟩
    all_goals
      constructor
      · unfold appendElement; simp only [hl]; split <;> rfl
      · unfold eraseElement; simp only [hl]; split
        · rfl
        · cases parseSize b <;> rfl
  · intro hh
    have hl : loadArg io isMasterData w ('$' :: s) = .ok none := by
      unfold Workspace.retrieveAny at hh
      cases hf : w.ws.find (sanitize s) with
      | none => simp [loadArg, isVar, varName, hf]
      | some v => simp [loadArg, isVar, varName, hf, not_dataTy (hh v hf)]
    unfold createContainer
    simp only [hl]
    split <;> rfl

/-- An array of images is none of the accepted containers. -/
example : ¬ ContainerTy (.array 2) tyDouble := by
  rintro (⟨n, h⟩ | ⟨h, -⟩)
  · cases h
  · exact h 2 rfl

example : parseSize ['x', '1'] = none := by decide

example (io : FileIO Nat Unit) (w : World Nat Unit) :=
  C71_reject io w ['v'] "$x".toList "one".toList [] (.inl (by decide +kernel))

end TinyDIP.Props
