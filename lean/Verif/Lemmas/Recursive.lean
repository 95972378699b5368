import Verif.Spec.Recursive
import Verif.Lemmas.Loop
import Mathlib.Tactic.Ring
import Mathlib.Tactic.Linarith
import Mathlib.Tactic.Tauto
import Mathlib.Algebra.BigOperators.Group.List.Basic

namespace TinyDIP.Rec

variable {α β T : Type}

theorem leaves_succ (n : Nat) (l : List (Nest α n)) : leaves (n + 1) l = l.flatMap fun e => leaves n e := rfl

theorem leaves_one (l : List α) : leaves 1 l = l := by
  rw [leaves_succ]; simp [leaves]

theorem rows_flatten : ∀ (n : Nat) (l : Nest α (n + 1)), (rows n l).flatten = leaves (n + 1) l
  | 0, l => by rw [leaves_one]; simp [rows]
  | n + 1, l => by
    rw [leaves_succ]
    simp only [rows]
    rw [List.flatMap_def, List.flatten_flatten, List.map_map, List.flatMap_def]
    exact congrArg List.flatten (List.map_congr_left fun e _ => rows_flatten n e)

/-! ### Predicates -/

theorem findIdx_ne {p : α → Bool} (l : List α) : (l.findIdx p != l.length) = l.any p := by
  rw [Bool.eq_iff_iff, bne_iff_ne, List.any_eq_true]
  have := List.findIdx_le_length (p := p) (xs := l)
  constructor
  · intro h
    have h1 : l.findIdx p < l.length := by omega
    exact List.findIdx_lt_length.1 h1
  · intro h
    have := List.findIdx_lt_length.2 h
    omega

theorem recAllOf_iff (p : α → Bool) : ∀ (n : Nat) (l : Nest α n), recAllOf p n l = (leaves n l).all p
  | 0, v => by simp [recAllOf, leaves]
  | n + 1, l => by
    rw [recAllOf, leaves_succ, List.all_flatMap]
    exact congrArg (List.all l) (funext fun e => recAllOf_iff p n e)

theorem recFindIf_iff (p : α → Bool) : ∀ (n : Nat) (l : Nest α n), recFindIf p n l = (leaves n l).any p
  | 0, v => by simp [recFindIf, leaves]
  | n + 1, l => by
    rw [recFindIf, leaves_succ, List.any_flatMap, findIdx_ne]
    exact congrArg (List.any l) (funext fun e => recFindIf_iff p n e)

theorem recFind_iff [DecidableEq α] (t : α) : ∀ (n : Nat) (l : Nest α n),
    recFind t n l = (leaves n l).any fun v => t == v
  | 0, v => by simp [recFind, leaves]
  | n + 1, l => by
    rw [recFind, leaves_succ, List.any_flatMap, findIdx_ne]
    exact congrArg (List.any l) (funext fun e => recFind_iff t n e)

/-! ### Generalised sums -/

theorem foldl_op {op : T → T → T} (h : CommSemi op) (a b : T) (l : List T) :
    l.foldl op (op a b) = op a (l.foldl op b) := by
  induction l generalizing b with
  | nil => rfl
  | cons c l ih => simp only [List.foldl_cons, h.assoc, ih]

theorem foldl_perm {op : T → T → T} (h : CommSemi op) {l l' : List T} (hp : l.Perm l') (a : T) :
    l.foldl op a = l'.foldl op a := by
  induction hp generalizing a with
  | nil => rfl
  | cons x _ ih => simp [ih]
  | swap x y l =>
    simp only [List.foldl_cons]
    rw [h.assoc, h.assoc, h.comm y x]
  | trans _ _ ih1 ih2 => rw [ih1, ih2]

/-- A generalised sum of a non-empty list is the left fold. -/
theorem GSum.eq {op : T → T → T} (h : CommSemi op) {l : List T} {r : T} (hg : GSum op l r) :
    ∀ a l', l.Perm (a :: l') → r = l'.foldl op a := by
  induction hg with
  | one a =>
    intro b l' hp
    have := List.perm_singleton.1 hp.symm
    simp only [List.cons.injEq] at this
    simp [this]
  | @split l l₁ l₂ x y hp h1 h2 _ _ ih1 ih2 =>
    intro c l' hc
    cases l₁ with
    | nil => exact absurd rfl h1
    | cons a1 m1 =>
      cases l₂ with
      | nil => exact absurd rfl h2
      | cons a2 m2 =>
        have e1 := ih1 a1 m1 (List.Perm.refl _)
        have e2 := ih2 a2 m2 (List.Perm.refl _)
        have key : op x y = (m1 ++ a2 :: m2).foldl op a1 := by
          rw [List.foldl_append, List.foldl_cons, ← e1, e2, foldl_op h]
        rw [key]
        have hpp : (a1 :: (m1 ++ a2 :: m2)).Perm (c :: l') := hp.symm.trans hc
        -- both sides fold the same multiset
        have foldl_head : ∀ (u v : T) (p q : List T), (u :: p).Perm (v :: q) →
            p.foldl op u = q.foldl op v := by
          intro u v p q hpq
          have hmem : u ∈ v :: q := hpq.subset (by simp)
          rcases List.mem_cons.1 hmem with e | hm
          · subst e
            exact foldl_perm h ((List.perm_cons _).1 hpq) u
          · obtain ⟨s, t, rfl⟩ := List.append_of_mem hm
            have hq : (v :: (s ++ u :: t)).Perm (u :: v :: (s ++ t)) := by
              refine ((List.perm_middle).cons v).trans (List.Perm.swap _ _ _)
            have hp' : p.Perm (v :: (s ++ t)) := (List.perm_cons _).1 (hpq.trans hq)
            rw [foldl_perm h hp' u, List.foldl_cons]
            have : (s ++ u :: t).Perm (u :: (s ++ t)) := List.perm_middle
            rw [foldl_perm h this v, List.foldl_cons, h.comm]
        exact foldl_head _ _ _ _ hpp

theorem GSum.of_foldl (op : T → T → T) (a : T) (l : List T) : GSum op (a :: l) (l.foldl op a) := by
  induction l using List.reverseRecOn with
  | nil => exact .one a
  | append_singleton l b ih =>
    rw [List.foldl_append]
    exact .split (l₁ := a :: l) (l₂ := [b]) (by simp) (by simp) (by simp) ih (.one b)

/-- With an identity element a list can be folded piecewise. -/
theorem foldl_flatMap {op : T → T → T} (h : CommSemi op) {z : T} (hz : ∀ a, op a z = a)
    {γ : Type} (f : γ → List T) (l : List γ) (a : T) :
    (l.map fun e => (f e).foldl op z).foldl op a = (l.flatMap f).foldl op a := by
  induction l generalizing a with
  | nil => rfl
  | cons e l ih =>
    simp only [List.map_cons, List.foldl_cons, List.flatMap_cons, List.foldl_append]
    rw [ih]
    congr 1
    rw [← foldl_op h, hz]

theorem forall₂_eq_map {R : α → β → Prop} {g : α → β} (h : ∀ a b, R a b → b = g a) :
    ∀ {l : List α} {m : List β}, List.Forall₂ R l m → m = l.map g
  | [], _, .nil => rfl
  | a :: l, _, .cons hb hr => by simp [h _ _ hb, forall₂_eq_map h hr]

theorem forall₂_map {R : α → β → Prop} {g : α → β} :
    ∀ {l : List α}, (∀ a ∈ l, R a (g a)) → List.Forall₂ R l (l.map g)
  | [], _ => .nil
  | a :: l, h => .cons (h a (by simp)) (forall₂_map fun b hb => h b (by simp [hb]))

theorem transformReduce_iff {op : T → T → T} (h : CommSemi op) {z : T} (hz : ∀ a, op a z = a) (u : α → T) :
    ∀ (n : Nat) (l : Nest α (n + 1)) (init r : T),
      TransformReduce op u z (n + 1) l init r ↔ r = ((leaves (n + 1) l).map u).foldl op init
  | 0, l, init, r => by
    rw [leaves_one]
    constructor
    · rintro ⟨vals, hv, hg⟩
      rw [forall₂_eq_map (g := u) (fun a b hab => hab) hv] at hg
      exact hg.eq h _ _ (List.Perm.refl _)
    · rintro rfl
      exact ⟨_, forall₂_map fun a _ => rfl, GSum.of_foldl op init _⟩
  | n + 1, l, init, r => by
    have ih := transformReduce_iff h hz u n
    rw [leaves_succ, List.map_flatMap, ← foldl_flatMap h hz]
    constructor
    · rintro ⟨vals, hv, hg⟩
      rw [forall₂_eq_map (g := fun e => ((leaves (n + 1) e).map u).foldl op z) (fun a b hab => (ih a z b).1 hab)
        hv] at hg
      exact hg.eq h _ _ (List.Perm.refl _)
    · rintro rfl
      exact ⟨_, forall₂_map fun a _ => (ih a z _).2 rfl, GSum.of_foldl op init _⟩

theorem transformReduceAll_iff {op : T → T → T} (h : CommSemi op) {z : T} (hz : ∀ a, op a z = a) (u : α → T) :
    ∀ (n : Nat) (l : Nest α n) (init r : T),
      TransformReduceAll op u z n l init r ↔ r = ((leaves n l).map u).foldl op init
  | 0, v, init, r => by simp [TransformReduceAll, leaves]
  | n + 1, l, init, r => by
    have ih := transformReduceAll_iff h hz u n
    rw [leaves_succ, List.map_flatMap, ← foldl_flatMap h hz]
    constructor
    · rintro ⟨vals, hv, hg⟩
      rw [forall₂_eq_map (g := fun e => ((leaves n e).map u).foldl op z) (fun a b hab => (ih a z b).1 hab)
        hv] at hg
      exact hg.eq h _ _ (List.Perm.refl _)
    · rintro rfl
      exact ⟨_, forall₂_map fun a _ => (ih a z _).2 rfl, GSum.of_foldl op init _⟩

/-! ### Counting -/

theorem wadd_semi : CommSemi wadd where
  assoc a b c := by unfold wadd W; omega
  comm a b := by unfold wadd W; omega

theorem foldl_wadd (l : List Nat) (a : Nat) (ha : a < 2 ^ 64) : l.foldl wadd a = (a + l.sum) % 2 ^ 64 := by
  induction l generalizing a with
  | nil => exact (Nat.mod_eq_of_lt ha).symm
  | cons b l ih =>
    rw [List.foldl_cons, ih _ (by unfold wadd W; omega), List.sum_cons]
    unfold wadd W
    omega

theorem sum_map_mod (l : List α) (g : α → Nat) (m : Nat) :
    ((l.map fun e => g e % m).sum) % m = ((l.map g).sum) % m := by
  induction l with
  | nil => rfl
  | cons a l ih => simp only [List.map_cons, List.sum_cons]; rw [Nat.add_mod, ih]; simp [Nat.add_mod]

theorem recCountIf_iff (p : α → Bool) : ∀ (n : Nat) (l : Nest α n) (r : Nat),
    RecCountIf p n l r ↔ r = (leaves n l).countP p % 2 ^ 64
  | 0, v, r => by
    simp only [RecCountIf, leaves, List.countP_singleton]
    split <;> simp
  | n + 1, l, r => by
    have ih := recCountIf_iff p n
    have key : ((List.map (fun e => (leaves n e).countP p % 2 ^ 64) l).foldl wadd 0) =
        (leaves (n + 1) l).countP p % 2 ^ 64 := by
      rw [foldl_wadd _ _ (by norm_num), Nat.zero_add, sum_map_mod, leaves_succ, List.countP_flatMap]
      rfl
    rw [← key]
    constructor
    · rintro ⟨vals, hv, hg⟩
      rw [forall₂_eq_map (g := fun e => (leaves n e).countP p % 2 ^ 64) (fun a b hab => (ih a b).1 hab) hv] at hg
      exact hg.eq wadd_semi _ _ (List.Perm.refl _)
    · rintro rfl
      exact ⟨_, forall₂_map fun a _ => (ih a _).2 rfl, GSum.of_foldl wadd 0 _⟩

/-- Every innermost vector has a `size_t` size. -/
theorem recSize_iff : ∀ (n : Nat) (l : Nest α (n + 1)) (r : Nat), (leaves (n + 1) l).length < 2 ^ 64 →
    (RecSize (n + 1) l r ↔ r = (leaves (n + 1) l).length)
  | 0, l, r, _ => by rw [leaves_one]; rfl
  | n + 1, l, r, hlt => by
    have ih := fun (l : Nest α (n + 1)) (r : Nat) h => recSize_iff n l r h
    rw [leaves_succ, List.length_flatMap] at hlt
    have hle : ∀ e ∈ (l : List (Nest α (n + 1))), (leaves (n + 1) e).length < 2 ^ 64 := fun e he =>
      lt_of_le_of_lt (List.le_sum_of_mem (List.mem_map.2 ⟨e, he, rfl⟩)) hlt
    have key : ((List.map (fun e => (leaves (n + 1) e).length) l).foldl wadd 0) =
        (leaves (n + 1 + 1) l).length := by
      rw [foldl_wadd _ _ (by norm_num), Nat.zero_add, leaves_succ, List.length_flatMap]
      exact Nat.mod_eq_of_lt hlt
    rw [← key]
    constructor
    · rintro ⟨vals, hv, hg⟩
      have : ∀ {m : List (Nest α (n + 1))} {vals : List Nat},
          (∀ e ∈ m, (leaves (n + 1) e).length < 2 ^ 64) →
          List.Forall₂ (fun e v => RecSize (n + 1) e v) m vals →
          vals = m.map fun e => (leaves (n + 1) e).length := by
        intro m vals hm hf
        induction hf with
        | nil => rfl
        | cons hb _ ih' =>
          simp only [List.map_cons]
          rw [ih' fun e he => hm e (by simp [he]), (ih _ _ (hm _ (by simp))).1 hb]
      rw [this hle hv] at hg
      exact hg.eq wadd_semi _ _ (List.Perm.refl _)
    · rintro rfl
      exact ⟨_, forall₂_map fun a ha => (ih a _ (hle a ha)).2 rfl, GSum.of_foldl wadd 0 _⟩

/-! ### Reductions and visits -/

theorem recReduce_eq (f : β → α → β) : ∀ (n : Nat) (l : Nest α n) (init : β),
    recReduce f n l init = (leaves n l).foldl f init
  | 0, v, init => by simp [recReduce, leaves]
  | n + 1, l, init => by
    rw [recReduce, leaves_succ, List.foldl_flatMap]
    simp only [recReduce_eq f n]

theorem reverseForeachAll_eq {ε : Type} (call : ε → α → ε) : ∀ (n : Nat) (l : Nest α n) (e : ε),
    reverseForeachAll call n l e = (leaves n l).foldr (fun a e => call e a) e
  | 0, v, e => by simp [reverseForeachAll, leaves]
  | n + 1, l, e => by
    rw [reverseForeachAll, leaves_succ, List.foldl_reverse, List.foldr_flatMap]
    simp only [reverseForeachAll_eq call n]

theorem recForEach_fst {σ ε : Type} (call : σ → ε → α → σ × ε) (n : Nat) (l : Nest α (n + 1)) (s : σ) (e : ε) :
    (recForEach call n l s e).1 = s := by
  cases n <;> rfl

theorem recForEach_snd {σ ε : Type} (call : σ → ε → α → σ × ε) : ∀ (n : Nat) (l : Nest α (n + 1)) (s : σ) (e : ε),
    (recForEach call n l s e).2 =
      (rows n l).foldl (fun e row => (row.foldl (fun st a => call st.1 st.2 a) (s, e)).2) e
  | 0, l, s, e => by simp [recForEach, rows]
  | n + 1, l, s, e => by
    simp only [recForEach, rows]
    rw [List.foldl_flatMap]
    simp only [recForEach_snd call n]

theorem parForEach_perm : ∀ (n : Nat) (l : Nest α (n + 1)) (calls : List α),
    ParForEach n l calls → calls.Perm (leaves (n + 1) l)
  | 0, l, calls, h => by rw [leaves_one]; exact h
  | n + 1, l, calls, h => by
    obtain ⟨parts, hf, hp⟩ := h
    refine hp.trans ?_
    rw [leaves_succ]
    clear hp
    have ih := fun (l : Nest α (n + 1)) c h => parForEach_perm n l c h
    generalize (l : List (Nest α (n + 1))) = m at hf ⊢
    induction hf with
    | nil => simp
    | cons hb _ ih' =>
      simp only [List.flatten_cons, List.flatMap_cons]
      exact (ih _ _ hb).append ih'

/-! ### Transformations -/

/-- The container with `f` applied to every leaf. -/
def mapNest (f : α → β) : (n : Nat) → Nest α n → Nest β n
  | 0, v => f v
  | n + 1, l => List.map (fun e => mapNest f n e) (l : List (Nest α n))

theorem leaves_mapNest (f : α → β) : ∀ (n : Nat) (l : Nest α n), leaves n (mapNest f n l) = (leaves n l).map f
  | 0, v => by simp [leaves, mapNest]
  | n + 1, l => by
    rw [leaves_succ, leaves_succ, mapNest, List.flatMap_map, List.map_flatMap]
    exact List.flatMap_congr fun e _ => leaves_mapNest f n e

theorem sameShape_mapNest (f : α → β) : ∀ (n : Nat) (l : Nest α n), SameShape n l (mapNest f n l)
  | 0, _ => trivial
  | n + 1, _ => forall₂_map fun e _ => sameShape_mapNest f n e

/-- A container is determined by its shape and its leaves. -/
theorem eq_of_shape : ∀ (n : Nat) (a b : Nest β n) (c : Nest α n), SameShape n c a → SameShape n c b →
    leaves n a = leaves n b → a = b
  | 0, a, b, _, _, _, h => by simpa [leaves] using h
  | n + 1, a, b, c, ha, hb, h => by
    have ih := fun (a b : Nest β n) (c : Nest α n) h1 h2 h3 => eq_of_shape n a b c h1 h2 h3
    have hlen : ∀ (x : Nest α n) (p q : Nest β n), SameShape n x p → SameShape n x q →
        (leaves n p).length = (leaves n q).length := by
      have len : ∀ (n : Nat) (x : Nest α n) (p : Nest β n), SameShape n x p →
          (leaves n x).length = (leaves n p).length := by
        intro n
        induction n with
        | zero => intro x p _; simp [leaves]
        | succ n ihn =>
          intro x p hp
          rw [leaves_succ, leaves_succ, List.length_flatMap, List.length_flatMap]
          congr 1
          change List.Forall₂ _ _ _ at hp
          induction hp with
          | nil => rfl
          | cons hx _ ih' => simp [ihn _ _ hx, ih']
      intro x p q hp hq
      rw [← len n x p hp, len n x q hq]
    change List.Forall₂ _ _ _ at ha hb
    rw [leaves_succ, leaves_succ] at h
    change List (Nest β n) at a b
    change List (Nest α n) at c
    induction ha generalizing b with
    | nil => cases hb; rfl
    | cons hx _ ih' =>
      cases hb with
      | cons hy hr =>
        simp only [List.flatMap_cons] at h
        obtain ⟨h1, h2⟩ := List.append_inj h (hlen _ _ _ hx hy)
        rw [ih _ _ _ hx hy h1, ih' _ h2 hr]

theorem recTransform_ok {f : α → Res β} {g : α → β} : ∀ (n : Nat) (l : Nest α n),
    (∀ a ∈ leaves n l, f a = .ok (g a)) → recTransform f n l = .ok (mapNest g n l)
  | 0, v, h => h v (by simp [leaves])
  | n + 1, l, h => by
    rw [leaves_succ] at h
    have key : ∀ (m : List (Nest α n)) (acc : List (Nest β n)), (∀ e ∈ m, ∀ a ∈ leaves n e, f a = .ok (g a)) →
        loop (fun (out : List (Nest β n)) e => do
          let r ← recTransform f n e
          .ok (out ++ [r])) m acc = .ok (acc ++ m.map fun e => mapNest g n e) := by
      intro m
      induction m with
      | nil => intro acc _; simp [loop]
      | cons e m ih =>
        intro acc hm
        rw [loop, recTransform_ok n e (hm e (by simp))]
        simp only [Res.ok_bind]
        rw [ih _ fun e' he' => hm e' (by simp [he'])]
        simp
    have := key l [] fun e he a ha => h a (List.mem_flatMap.2 ⟨e, he, ha⟩)
    simpa [recTransform, mapNest] using this

theorem recTransform_exists {f : α → Res β} : ∀ (n : Nat) (l : Nest α n),
    (∀ a ∈ leaves n l, ∃ b, f a = .ok b) → ∃ r, recTransform f n l = .ok r
  | 0, v, h => h v (by simp [leaves])
  | n + 1, l, h => by
    rw [leaves_succ] at h
    obtain ⟨r, hr, _⟩ := loop_inv (body := fun (out : List (Nest β n)) e => do
        let r ← recTransform f n e
        .ok (out ++ [r]))
      (fun (m : List (Nest α n)) _ => ∀ e ∈ m, ∀ a ∈ leaves n e, ∃ b, f a = .ok b)
      (fun e m s hm => by
        obtain ⟨r, hr⟩ := recTransform_exists n e (hm e (by simp))
        exact ⟨s ++ [r], by simp [hr], fun e' he' => hm e' (by simp [he'])⟩) l []
      (fun e he a ha => h a (List.mem_flatMap.2 ⟨e, he, ha⟩))
    exact ⟨r, hr⟩

/-- An exception of the function at some leaf ends the call. -/
theorem recTransform_throw {f : α → Res β} {e : Exc} (hf : ∀ a, (∃ b, f a = .ok b) ∨ f a = .throw e) :
    ∀ (n : Nat) (l : Nest α n), (∃ a ∈ leaves n l, f a = .throw e) → recTransform f n l = .throw e
  | 0, v, h => by
    obtain ⟨a, ha, h⟩ := h
    simp only [leaves, List.mem_singleton] at ha
    subst ha
    exact h
  | n + 1, l, h => by
    rw [leaves_succ] at h
    have ih := recTransform_throw hf n
    have key : ∀ (m : List (Nest α n)) (acc : List (Nest β n)), (∃ x ∈ m, ∃ a ∈ leaves n x, f a = .throw e) →
        loop (fun (out : List (Nest β n)) e => do
          let r ← recTransform f n e
          .ok (out ++ [r])) m acc = .throw e := by
      intro m
      induction m with
      | nil => intro acc ⟨x, hx, _⟩; simp at hx
      | cons x m ihm =>
        intro acc hm
        by_cases hx : ∃ a ∈ leaves n x, f a = .throw e
        · rw [loop, ih x hx]; rfl
        · obtain ⟨r, hr⟩ := recTransform_exists n x fun a ha => (hf a).resolve_right fun h => hx ⟨a, ha, h⟩
          rw [loop, hr]
          simp only [Res.ok_bind]
          refine ihm _ ?_
          obtain ⟨y, hy, h⟩ := hm
          rcases List.mem_cons.1 hy with rfl | hy
          · exact absurd h hx
          · exact ⟨y, hy, h⟩
    exact key l [] (by
      obtain ⟨a, ha, h⟩ := h
      obtain ⟨x, hx, ha⟩ := List.mem_flatMap.1 ha
      exact ⟨x, hx, a, ha, h⟩)

theorem transform2_ok {γ : Type} {op : α → β → Res γ} {g : α → β → γ} : ∀ (as : List α) (bs : List β),
    as.length ≤ bs.length → (∀ p ∈ as.zip bs, op p.1 p.2 = .ok (g p.1 p.2)) →
    transform2 op as bs = .ok (List.zipWith g as bs)
  | [], _, _, _ => by simp [transform2]
  | _ :: _, [], h, _ => by simp at h
  | a :: as, b :: bs, h, hop => by
    rw [transform2, hop (a, b) (by simp)]
    simp only [Res.ok_bind]
    rw [transform2_ok as bs (by simpa using h) fun p hp => hop p (by simp [hp])]
    simp

theorem transform2_ub {γ : Type} {op : α → β → Res γ} {g : α → β → γ} (hop : ∀ a b, op a b = .ok (g a b)) :
    ∀ (as : List α) (bs : List β), bs.length < as.length → transform2 op as bs = .ub
  | [], _, h => by simp at h
  | _ :: _, [], _ => rfl
  | a :: as, b :: bs, h => by
    rw [transform2, hop]
    simp only [Res.ok_bind]
    rw [transform2_ub hop as bs (by simpa using h)]
    rfl

/-- The container with `f` applied to the leaves at the same place. -/
def zipNest {γ : Type} (f : α → β → γ) : (n : Nat) → Nest α n → Nest β n → Nest γ n
  | 0, a, b => f a b
  | n + 1, a, b => List.zipWith (fun x y => zipNest f n x y) (a : List (Nest α n)) (b : List (Nest β n))

theorem recTransform2_ok {γ : Type} (f : α → β → γ) : ∀ (n : Nat) (a : Nest α n) (b : Nest β n),
    SameShape n a b → recTransform2 f n a b = .ok (zipNest f n a b)
  | 0, _, _, _ => rfl
  | n + 1, a, b, h => by
    rw [recTransform2, zipNest]
    change List.Forall₂ _ _ _ at h
    refine transform2_ok _ _ h.length_eq.le fun p hp => recTransform2_ok f n _ _ ?_
    exact (List.forall₂_iff_zip.1 h).2 hp

theorem zipNest_spec {γ : Type} (f : α → β → γ) : ∀ (n : Nat) (a : Nest α n) (b : Nest β n), SameShape n a b →
    SameShape n a (zipNest f n a b) ∧ (leaves n a).length = (leaves n b).length ∧
    leaves n (zipNest f n a b) = List.zipWith f (leaves n a) (leaves n b)
  | 0, a, b, _ => by simp [SameShape, leaves, zipNest]
  | n + 1, a, b, h => by
    have ih := fun a b h => zipNest_spec f n a b h
    change List.Forall₂ _ _ _ at h
    rw [leaves_succ, leaves_succ, leaves_succ, zipNest]
    simp only [SameShape]
    induction h with
    | nil => simp
    | cons hx _ ih' =>
      obtain ⟨i1, i2, i3⟩ := ih _ _ hx
      simp only [List.zipWith_cons_cons, List.flatMap_cons, List.length_append, List.forall₂_cons, i3, ih'.2.2]
      refine ⟨⟨i1, ih'.1⟩, by rw [i2, ih'.2.1], ?_⟩
      rw [List.zipWith_append i2]

/-! ### The parallel transformation -/

theorem loop_setL {γ : Type} (body : List γ → Nat → Res (List γ)) (v : Nat → γ) (k : Nat) :
    ∀ (l : List Nat), (∀ i ∈ l, i < k) → (∀ i ∈ l, ∀ out : List γ, out.length = k → body out i = .ok (out.set i (v i))) →
      ∀ out : List γ, out.length = k → ∃ out', loop body l out = .ok out' ∧ out'.length = k ∧
        ∀ i < k, out'[i]? = if i ∈ l then some (v i) else out[i]?
  | [], _, _, out, h => ⟨out, rfl, h, by simp⟩
  | j :: l, hl, hb, out, h => by
    obtain ⟨out', e, h1, h2⟩ := loop_setL body v k l (fun i hi => hl i (by simp [hi]))
      (fun i hi => hb i (by simp [hi])) (out.set j (v j)) (by simpa using h)
    refine ⟨out', by rw [loop, hb j (by simp) out h]; exact e, h1, fun i hi => ?_⟩
    rw [h2 i hi]
    by_cases hm : i ∈ l
    · simp [hm]
    · simp only [hm, if_false, List.mem_cons, or_false, List.getElem?_set]
      have := hl j (by simp)
      by_cases hij : j = i
      · subst hij; simp [h, this]
      · simp [hij, Ne.symm hij]

theorem recTransformPar_ok {sched : List Nat → Nat → List Nat}
    (hs : ∀ path k, (sched path k).Perm (List.range k)) (f : α → β) (d : β) :
    ∀ (n : Nat) (path : List Nat) (l : Nest α n), recTransformPar sched f d n path l = .ok (mapNest f n l)
  | 0, _, _ => rfl
  | n + 1, path, l => by
    have ih := recTransformPar_ok hs f d n
    rw [recTransformPar, mapNest]
    change List (Nest α n) at l
    obtain ⟨out, e, hl, ho⟩ := loop_setL (fun (out : List (Nest β n)) i => do
        let e ← vget l i
        let r ← recTransformPar sched f d n (path ++ [i]) e
        vset out i r) (fun i => match l[i]? with | some e => mapNest f n e | none => nestDefault d n) l.length
      (sched path l.length) (fun i hi => List.mem_range.1 ((hs _ _).subset hi))
      (fun i hi out ho => by
        have hi' : i < l.length := List.mem_range.1 ((hs _ _).subset hi)
        simp only [vget, vset, List.getElem?_eq_getElem hi', Res.ok_bind, ih, ho, hi', if_true])
      (List.replicate l.length (nestDefault d n)) (by simp)
    rw [e]
    refine congrArg Res.ok (List.ext_getElem? fun i => ?_)
    by_cases hi : i < l.length
    · rw [ho i hi, if_pos ((hs _ _).mem_iff.2 (List.mem_range.2 hi)), List.getElem?_map]
      simp [List.getElem?_eq_getElem hi]
    · rw [List.getElem?_eq_none (by omega), List.getElem?_eq_none (by simp; omega)]

/-! ### Filters -/

theorem replace_rows (p : α → Bool) (v : α) : ∀ (n : Nat) (l : Nest α (n + 1)),
    recReplaceCopyIf p v n l = mapNest (fun a => if p a then v else a) (n + 1) l
  | 0, _ => rfl
  | n + 1, l => by
    rw [recReplaceCopyIf, mapNest]
    exact List.map_congr_left fun e _ => replace_rows p v n e

theorem remove_rows (p : α → Bool) : ∀ (n : Nat) (l : Nest α (n + 1)),
    SameOuterShape n l (recRemoveCopyIf p n l) ∧
    rows n (recRemoveCopyIf p n l) = (rows n l).map fun r => r.filter fun a => !p a
  | 0, _ => ⟨trivial, rfl⟩
  | n + 1, l => by
    refine ⟨forall₂_map fun e _ => (remove_rows p n e).1, ?_⟩
    simp only [rows, recRemoveCopyIf, List.map_flatMap]
    rw [List.flatMap_map]
    exact List.flatMap_congr fun e _ => (remove_rows p n e).2

theorem copy_rows (p : α → Bool) : ∀ (n : Nat) (l : Nest α (n + 1)),
    SameOuterShape n l (recCopyIf p n l) ∧ rows n (recCopyIf p n l) = (rows n l).map fun r => r.filter p
  | 0, _ => ⟨trivial, rfl⟩
  | n + 1, l => by
    refine ⟨forall₂_map fun e _ => (copy_rows p n e).1, ?_⟩
    simp only [rows, recCopyIf, List.map_flatMap]
    rw [List.flatMap_map]
    exact List.flatMap_congr fun e _ => (copy_rows p n e).2

theorem flatten_filter (p : α → Bool) (l : List (List α)) :
    (l.map fun r => r.filter p).flatten = l.flatten.filter p := by
  rw [List.filter_flatten]

/-! ### Flattening and generators -/

theorem foldl_snoc (l out : List α) : l.foldl (fun out a => out ++ [a]) out = out ++ l := by
  induction l generalizing out with
  | nil => simp
  | cons a l ih => simp [ih]

theorem recFlatten_eq : ∀ (n : Nat) (l : Nest α (n + 1)) (out : List α),
    recFlatten n l out = out ++ leaves (n + 1) l
  | 0, l, out => by rw [recFlatten, foldl_snoc, leaves_one]
  | n + 1, l, out => by
    rw [leaves_succ, recFlatten]
    have ih := fun l out => recFlatten_eq n (l : Nest α (n + 1)) out
    change List (Nest α (n + 1)) at l
    induction l generalizing out with
    | nil => simp
    | cons e l ihl => rw [List.foldl_cons, ihl, ih]; simp

theorem nDim_spec (x : α) (k : Nat) : ∀ n : Nat, Uniform k n (nDimGenerator x k n) ∧
    leaves n (nDimGenerator x k n) = List.replicate (k ^ n) x
  | 0 => by simp [Uniform, leaves, nDimGenerator]
  | n + 1 => by
    obtain ⟨h1, h2⟩ := nDim_spec x k n
    refine ⟨⟨by simp [nDimGenerator], fun e he => ?_⟩, ?_⟩
    · rw [List.eq_of_mem_replicate he]; exact h1
    · rw [leaves_succ, nDimGenerator]
      have : ∀ m : Nat, (List.replicate m (nDimGenerator x k n)).flatMap (fun e => leaves n e) =
          List.replicate (m * k ^ n) x := by
        intro m
        induction m with
        | zero => simp
        | succ m ih => rw [List.replicate_succ, List.flatMap_cons, ih, h2, List.replicate_append_replicate]; congr 1; ring
      rw [this, pow_succ, Nat.mul_comm]

/-! ### Extrema -/

theorem stdMax_spec {comp : α → α → Bool} (h : WeakOrder comp) (a b : α) :
    (stdMax comp id a b = a ∨ stdMax comp id a b = b) ∧ comp (stdMax comp id a b) a = false ∧
    comp (stdMax comp id a b) b = false := by
  have irr : ∀ x, comp x x = false := fun x => by
    by_contra hx
    rw [Bool.not_eq_false] at hx
    have := h.asymm _ _ hx
    rw [hx] at this; cases this
  unfold stdMax
  simp only [id]
  split
  · rename_i hc; exact ⟨.inr rfl, h.asymm _ _ hc, irr _⟩
  · rename_i hc; exact ⟨.inl rfl, irr _, by simpa using hc⟩

theorem stdMin_spec {comp : α → α → Bool} (h : WeakOrder comp) (a b : α) :
    (stdMin comp id a b = a ∨ stdMin comp id a b = b) ∧ comp a (stdMin comp id a b) = false ∧
    comp b (stdMin comp id a b) = false := by
  have irr : ∀ x, comp x x = false := fun x => by
    by_contra hx
    rw [Bool.not_eq_false] at hx
    have := h.asymm _ _ hx
    rw [hx] at this; cases this
  unfold stdMin
  simp only [id]
  split
  · rename_i hc; exact ⟨.inr rfl, h.asymm _ _ hc, irr _⟩
  · rename_i hc; exact ⟨.inl rfl, irr _, by simpa using hc⟩

theorem recMax_spec {comp : α → α → Bool} (h : WeakOrder comp) : ∀ (n : Nat) (l : Nest α n), NoEmpty n l →
    ∃ m, recMax comp id n l = .ok m ∧ m ∈ leaves n l ∧ ∀ x ∈ leaves n l, comp m x = false
  | 0, v, _ => ⟨v, rfl, by simp [leaves], by
      intro x hx
      simp only [leaves, List.mem_singleton] at hx
      subst hx
      have := (stdMax_spec h x x).2.1
      simpa [stdMax] using this⟩
  | n + 1, l, hl => by
    have ih := recMax_spec h n
    change List (Nest α n) at l
    obtain ⟨hne, hl⟩ := hl
    cases l with
    | nil => exact absurd rfl hne
    | cons e es =>
      obtain ⟨m0, e0, hm0, _⟩ := ih e (hl e (by simp))
      obtain ⟨m, em, hm, hin⟩ := loop_inv (body := fun out x => do
          let r ← recMax comp id n x
          Res.ok (stdMax comp id out r))
        (fun (rest : List (Nest α n)) out => (∃ x ∈ e :: es, out ∈ leaves n x) ∧
          (∀ x ∈ rest, x ∈ e :: es) ∧ ∀ x ∈ e :: es, x ∉ rest → ∀ a ∈ leaves n x, comp out a = false)
        (fun b bs s ⟨h1, h2, h3⟩ => by
          obtain ⟨r, er, hr, hb⟩ := ih b (hl b (h2 b (by simp)))
          obtain ⟨c1, c2, c3⟩ := stdMax_spec h s r
          refine ⟨stdMax comp id s r, by simp [er], ?_, fun x hx => h2 x (by simp [hx]), fun x hx hnot a ha => ?_⟩
          · rcases c1 with c | c <;> rw [c]
            · exact h1
            · exact ⟨b, h2 b (by simp), hr⟩
          · by_cases hxb : x = b
            · subst hxb
              exact h.trans _ _ _ c3 (hb a ha)
            · exact h.trans _ _ _ c2 (h3 x hx (by simp [hxb, hnot]) a ha))
        (e :: es) m0 ⟨⟨e, by simp, hm0⟩, fun x hx => hx, fun x hx hn => absurd hx hn⟩
      refine ⟨m, ?_, ?_, ?_⟩
      · rw [recMax]; simp only [e0, Res.ok_bind]; exact em
      · rw [leaves_succ, List.mem_flatMap]; exact hm
      · intro x hx
        rw [leaves_succ, List.mem_flatMap] at hx
        obtain ⟨y, hy, hx⟩ := hx
        exact hin.2 y hy (by simp) x hx

theorem recMin_spec {comp : α → α → Bool} (h : WeakOrder comp) : ∀ (n : Nat) (l : Nest α n), NoEmpty n l →
    ∃ m, recMin comp id n l = .ok m ∧ m ∈ leaves n l ∧ ∀ x ∈ leaves n l, comp x m = false
  | 0, v, _ => ⟨v, rfl, by simp [leaves], by
      intro x hx
      simp only [leaves, List.mem_singleton] at hx
      subst hx
      have := (stdMin_spec h x x).2.1
      simpa [stdMin] using this⟩
  | n + 1, l, hl => by
    have ih := recMin_spec h n
    change List (Nest α n) at l
    obtain ⟨hne, hl⟩ := hl
    cases l with
    | nil => exact absurd rfl hne
    | cons e es =>
      obtain ⟨m0, e0, hm0, _⟩ := ih e (hl e (by simp))
      obtain ⟨m, em, hm, hin⟩ := loop_inv (body := fun out x => do
          let r ← recMin comp id n x
          Res.ok (stdMin comp id out r))
        (fun (rest : List (Nest α n)) out => (∃ x ∈ e :: es, out ∈ leaves n x) ∧
          (∀ x ∈ rest, x ∈ e :: es) ∧ ∀ x ∈ e :: es, x ∉ rest → ∀ a ∈ leaves n x, comp a out = false)
        (fun b bs s ⟨h1, h2, h3⟩ => by
          obtain ⟨r, er, hr, hb⟩ := ih b (hl b (h2 b (by simp)))
          obtain ⟨c1, c2, c3⟩ := stdMin_spec h s r
          refine ⟨stdMin comp id s r, by simp [er], ?_, fun x hx => h2 x (by simp [hx]), fun x hx hnot a ha => ?_⟩
          · rcases c1 with c | c <;> rw [c]
            · exact h1
            · exact ⟨b, h2 b (by simp), hr⟩
          · by_cases hxb : x = b
            · subst hxb
              exact h.trans _ _ _ (hb a ha) c3
            · exact h.trans _ _ _ (h3 x hx (by simp [hxb, hnot]) a ha) c2)
        (e :: es) m0 ⟨⟨e, by simp, hm0⟩, fun x hx => hx, fun x hx hn => absurd hx hn⟩
      refine ⟨m, ?_, ?_, ?_⟩
      · rw [recMin]; simp only [e0, Res.ok_bind]; exact em
      · rw [leaves_succ, List.mem_flatMap]; exact hm
      · intro x hx
        rw [leaves_succ, List.mem_flatMap] at hx
        obtain ⟨y, hy, hx⟩ := hx
        exact hin.2 y hy (by simp) x hx

theorem recMax_empty (comp : α → α → Bool) (proj : α → α) : ∀ (n : Nat) (l : Nest α n), ¬ NoEmpty n l →
    recMax comp proj n l = .throw .outOfRange
  | 0, _, h => absurd trivial h
  | n + 1, l, h => by
    have ih := recMax_empty comp proj n
    have tot : ∀ (n : Nat) (l : Nest α n), NoEmpty n l → ∃ m, recMax comp proj n l = .ok m := by
      intro n
      induction n with
      | zero => intro v _; exact ⟨proj v, rfl⟩
      | succ n ihn =>
        intro l hl
        change List (Nest α n) at l
        obtain ⟨hne, hl⟩ := hl
        cases l with
        | nil => exact absurd rfl hne
        | cons e es =>
          obtain ⟨m0, e0⟩ := ihn e (hl e (by simp))
          obtain ⟨m, em, _⟩ := loop_inv (body := fun out x => do
              let r ← recMax comp proj n x
              Res.ok (stdMax comp proj out r)) (fun (rest : List (Nest α n)) _ => ∀ x ∈ rest, NoEmpty n x)
            (fun b bs s hb => by
              obtain ⟨r, er⟩ := ihn b (hb b (by simp))
              exact ⟨_, by simp only [er, Res.ok_bind]; rfl, fun x hx => hb x (by simp [hx])⟩) (e :: es) m0 hl
          exact ⟨m, by rw [recMax]; simp only [e0, Res.ok_bind]; exact em⟩
    change List (Nest α n) at l
    cases l with
    | nil => rfl
    | cons e es =>
      rw [recMax]
      by_cases he : NoEmpty n e
      · obtain ⟨m0, e0⟩ := tot n e he
        rw [e0]
        simp only [Res.ok_bind]
        have hex : ∃ x ∈ e :: es, ¬ NoEmpty n x := by
          by_contra hc
          exact h ⟨by simp, fun x hx => by_contra fun hn => hc ⟨x, hx, hn⟩⟩
        have key : ∀ (m : List (Nest α n)) (s : α), (∃ x ∈ m, ¬ NoEmpty n x) → loop (fun out x => do
            let r ← recMax comp proj n x
            Res.ok (stdMax comp proj out r)) m s = .throw .outOfRange := by
          intro m
          induction m with
          | nil => intro s ⟨x, hx, _⟩; simp at hx
          | cons b m ihm =>
            intro s hm
            by_cases hb : NoEmpty n b
            · obtain ⟨r, er⟩ := tot n b hb
              rw [loop, er]
              simp only [Res.ok_bind]
              refine ihm _ ?_
              obtain ⟨x, hx, hn⟩ := hm
              rcases List.mem_cons.1 hx with rfl | hx
              · exact absurd hb hn
              · exact ⟨x, hx, hn⟩
            · rw [loop, ih b hb]; rfl
        exact key _ _ hex
      · rw [ih e he]; rfl

theorem stdMinmax_spec {comp : β → β → Bool} (h : WeakOrder comp) (proj : α → β) (l : List α) (hl : l ≠ []) :
    ∃ lo hi, stdMinmax comp proj l = .ok (lo, hi) ∧ lo ∈ l ∧ hi ∈ l ∧
      ∀ x ∈ l, comp (proj x) (proj lo) = false ∧ comp (proj hi) (proj x) = false := by
  have irr : ∀ x, comp x x = false := fun x => by
    by_contra hx
    rw [Bool.not_eq_false] at hx
    have := h.asymm _ _ hx
    rw [hx] at this; cases this
  cases l with
  | nil => exact absurd rfl hl
  | cons a l =>
    have key : ∀ (m : List α) (s : α × α), let r := m.foldl (fun s x =>
        (if comp (proj x) (proj s.1) then x else s.1, if comp (proj x) (proj s.2) then s.2 else x)) s
        (r.1 = s.1 ∨ r.1 ∈ m) ∧ (r.2 = s.2 ∨ r.2 ∈ m) ∧ comp (proj s.1) (proj r.1) = false ∧
        comp (proj r.2) (proj s.2) = false ∧
        ∀ x ∈ m, comp (proj x) (proj r.1) = false ∧ comp (proj r.2) (proj x) = false := by
      intro m
      induction m with
      | nil => intro s; simp [irr]
      | cons b m ih =>
        intro s
        simp only [List.foldl_cons]
        obtain ⟨i1, i2, i3, i4, i5⟩ := ih
          (if comp (proj b) (proj s.1) then b else s.1, if comp (proj b) (proj s.2) then s.2 else b)
        generalize m.foldl _ _ = r at i1 i2 i3 i4 i5 ⊢
        simp only at i1 i2 i3 i4
        refine ⟨?_, ?_, ?_, ?_, ?_⟩
        · rcases i1 with i | i
          · rw [i]; split <;> simp
          · exact .inr (by simp [i])
        · rcases i2 with i | i
          · rw [i]; split <;> simp
          · exact .inr (by simp [i])
        · refine h.trans _ _ _ ?_ i3
          split
          · rename_i hc; exact h.asymm _ _ hc
          · exact irr _
        · refine h.trans _ _ _ i4 ?_
          split
          · exact irr _
          · rename_i hc; simpa using hc
        · intro x hx
          rcases List.mem_cons.1 hx with rfl | hx
          · constructor
            · refine h.trans _ _ _ ?_ i3
              split
              · exact irr _
              · rename_i hc; simpa using hc
            · refine h.trans _ _ _ i4 ?_
              split
              · rename_i hc; exact h.asymm _ _ hc
              · exact irr _
          · exact i5 x hx
    obtain ⟨k1, k2, k3, k4, k5⟩ := key l (a, a)
    refine ⟨_, _, rfl, ?_, ?_, ?_⟩
    · rcases k1 with k | k
      · rw [k]; simp
      · simp [k]
    · rcases k2 with k | k
      · rw [k]; simp
      · simp [k]
    · intro x hx
      rcases List.mem_cons.1 hx with rfl | hx
      · exact ⟨k3, k4⟩
      · exact k5 x hx

end TinyDIP.Rec
