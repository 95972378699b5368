import Verif.Lemmas.Pipe

/-!
# The optimiser on chains of transform commands
-/

namespace TinyDIP.Cli

variable {P F : Type}

/-- The stage `copy`. -/
def copyStage : Stage := ⟨sCopy, [], []⟩

/-- What the lemmas below need about a stage. -/
def OkStage (reg : Registry (World P F)) (Good : Val P → Prop)
    (den : Stage → Val P → Option (Val P)) (s : Stage) : Prop :=
  (s = copyStage ∨ (s.name ≠ sCopy ∧ reg.getSchema s.name = some transformerSchema)) ∧
    (∀ p ∈ s.pol, PolicyWord p) ∧ ActsAs reg s.name s.pol s.sub (den s) ∧
    ∀ v, Good v → ∃ r, den s v = some r ∧ Good r

theorem argsFilter_pol (pol r : List Str) (h : ∀ p ∈ pol, PolicyWord p) :
    argsFilter (pol ++ r) = argsFilter r := by
  induction pol with
  | nil => rfl
  | cons a l ih =>
    have := (policyWord_iff' a).1 (h a (by simp))
    simp only [List.cons_append, argsFilter, this, if_true]
    exact ih fun p hp => h p (by simp [hp])

theorem getIo_stage {reg : Registry (World P F)} {Good : Val P → Prop}
    {den : Stage → Val P → Option (Val P)} {s : Stage} (h : OkStage reg Good den s) (x y : Str) :
    getIo reg.getSchema (s.cmd x y) = ('$' :: x, '$' :: y) := by
  obtain ⟨h1, h2, -⟩ := h
  rcases h1 with rfl | ⟨hn, hs⟩
  · simp [getIo, Stage.cmd, copyStage]
  · unfold getIo
    have : ¬ ((s.cmd x y).name = sCopy ∧ 2 ≤ (s.cmd x y).args.length) := fun h => hn h.1
    rw [if_neg this]
    have hs' : reg.getSchema (s.cmd x y).name = some ⟨some 0, some 1⟩ := hs
    rw [hs']
    have hf : argsFilter (s.cmd x y).args = ('$' :: x) :: ('$' :: y) :: argsFilter s.sub := by
      show argsFilter (s.pol ++ ['$' :: x, '$' :: y] ++ s.sub) = _
      rw [List.append_assoc, argsFilter_pol _ _ h2]
      simp [argsFilter, isPolicy_var]
    simp [logicalArg, hf]

theorem updateArg_pol (pol r : List Str) (h : ∀ p ∈ pol, PolicyWord p) (i : Nat) (v : Str) :
    updateArg (pol ++ r) i v = (updateArg r i v).map (pol ++ ·) := by
  induction pol with
  | nil => simp
  | cons a l ih =>
    have := (policyWord_iff' a).1 (h a (by simp))
    simp only [List.cons_append, updateArg, this, if_true]
    rw [ih fun p hp => h p (by simp [hp])]
    cases updateArg r i v <;> simp

theorem updateIn_stage {reg : Registry (World P F)} {Good : Val P → Prop}
    {den : Stage → Val P → Option (Val P)} {s : Stage} (h : OkStage reg Good den s) (x y x' : Str) :
    updateIn reg.getSchema (s.cmd x y) ('$' :: x') = some (s.cmd x' y) := by
  obtain ⟨h1, h2, -⟩ := h
  rcases h1 with rfl | ⟨hn, hs⟩
  · simp [updateIn, Stage.cmd, copyStage]
  · unfold updateIn
    have : ¬ ((s.cmd x y).name = sCopy ∧ 2 ≤ (s.cmd x y).args.length) := fun h => hn h.1
    rw [if_neg this]
    have hs' : reg.getSchema (s.cmd x y).name = some ⟨some 0, some 1⟩ := hs
    rw [hs']
    simp only [Stage.cmd, List.append_assoc]
    rw [updateArg_pol _ _ h2]
    simp [updateArg, isPolicy_var]

theorem updateOut_stage {reg : Registry (World P F)} {Good : Val P → Prop}
    {den : Stage → Val P → Option (Val P)} {s : Stage} (h : OkStage reg Good den s) (x y y' : Str) :
    updateOut reg.getSchema (s.cmd x y) ('$' :: y') = some (s.cmd x y') := by
  obtain ⟨h1, h2, -⟩ := h
  rcases h1 with rfl | ⟨hn, hs⟩
  · simp [updateOut, Stage.cmd, copyStage]
  · unfold updateOut
    have : ¬ ((s.cmd x y).name = sCopy ∧ 2 ≤ (s.cmd x y).args.length) := fun h => hn h.1
    rw [if_neg this]
    have hs' : reg.getSchema (s.cmd x y).name = some ⟨some 0, some 1⟩ := hs
    rw [hs']
    simp only [Stage.cmd, List.append_assoc]
    rw [updateArg_pol _ _ h2]
    simp [updateArg, isPolicy_var]

/-- Trimming keeps a prefix without junk. -/
theorem sanitize_keep (p t : Str) (hne : p ≠ []) (hp : ∀ c ∈ p, isJunk c = false) :
    ∃ t', sanitize (p ++ t) = p ++ t' := by
  have h0 : ∀ q : Str, q ≠ [] → (∀ c ∈ q, isJunk c = false) → q.dropWhile isJunk = q := by
    intro q hq h
    cases q with
    | nil => exact absurd rfl hq
    | cons c q => rw [List.dropWhile_cons, h c (by simp)]; simp
  have h1 : ∀ t : Str, ∃ t', (t ++ p.reverse).dropWhile isJunk = t' ++ p.reverse := by
    intro t
    induction t with
    | nil =>
      refine ⟨[], ?_⟩
      rw [List.nil_append, h0 p.reverse (by simpa using hne) (by simpa using hp)]
    | cons c t ih =>
      rw [List.cons_append, List.dropWhile_cons]
      split
      · exact ih
      · exact ⟨c :: t, rfl⟩
  obtain ⟨t', ht⟩ := h1 t.reverse
  refine ⟨t'.reverse, ?_⟩
  unfold sanitize
  rw [List.reverse_append, ht, List.reverse_append, List.reverse_reverse]
  cases p with
  | nil => exact absurd rfl hne
  | cons c p => rw [List.cons_append, List.dropWhile_cons, hp c (by simp)]; simp

theorem sanitize_var (s : Str) : (sanitize ('$' :: s)).head? = some '$' := by
  obtain ⟨t, ht⟩ := sanitize_keep ['$'] s (by simp) (by decide)
  rw [List.singleton_append] at ht
  rw [ht]; rfl

theorem pipe_text : "__pipe_".toList = ['_', '_', 'p', 'i', 'p', 'e', '_'] := by decide

theorem isPipe_of_prefix {z : Str} (h : "__pipe_".toList <+: z) : isPipe ('$' :: z) = true := by
  obtain ⟨t, rfl⟩ := h
  rw [pipe_text]
  simp [isPipe, pipePrefix, List.isPrefixOf]

theorem UserVar.not_same {m z : Str} (hm : UserVar m) (hz : "__pipe_".toList <+: z) :
    ¬ SameVar m z := by
  rintro ⟨n, h1, h2⟩
  refine hm n h1 ?_
  obtain ⟨t, rfl⟩ := hz
  rw [pipe_text] at h2 ⊢
  obtain ⟨t', ht⟩ := sanitize_keep ['_', '_', 'p', 'i', 'p', 'e', '_'] t (by simp) (by decide)
  rw [← means_iff.1 h2, ht]
  exact ⟨t', rfl⟩

/-- The conditions on the stages of a chain. -/
structure ChainOk (isOne : Str → Bool) (reg : Registry (World P F)) (Good : Val P → Prop)
    (den : Stage → Val P → Option (Val P)) (ok : Stage → Prop) : Prop where
  stage : ∀ s, ok s → OkStage reg Good den s
  copy : ok copyStage
  copyDen : ∀ v, den copyStage v = some v
  one : ∀ s t, ok s → s.name = sMultiply → s.sub.getLast? = some t → isOne (sanitize t) = true →
    ∀ v, Good v → den s v = some v
  inv : ∀ s t, ok s → ok t → inversePair s.name t.name = true → ∀ v, Good v →
    (den s v).bind (den t) = some v
  isOne : ∀ t, t.head? = some '$' → isOne t = false

section
variable {isOne : Str → Bool} {reg : Registry (World P F)} {Good : Val P → Prop}
  {den : Stage → Val P → Option (Val P)} {ok : Stage → Prop}

theorem rule1_stage (H : ChainOk isOne reg Good den ok) (s : Stage) (hs : ok s) (x y : Str) :
    ∃ s', ok s' ∧ (rule1 isOne reg.getSchema (s.cmd x y)).1 = s'.cmd x y ∧
      ∀ v, Good v → den s' v = den s v := by
  unfold rule1
  split
  · rename_i h
    refine ⟨copyStage, H.copy, ?_, fun v hv => ?_⟩
    · rw [getIo_stage (H.stage s hs)]; rfl
    · rw [H.copyDen]
      obtain ⟨h1, h2, h3⟩ := h
      cases hl : s.sub.getLast? with
      | some t =>
        have : (s.cmd x y).args.getLast? = some t := by
          show (s.pol ++ ['$' :: x, '$' :: y] ++ s.sub).getLast? = _
          rw [List.getLast?_append, hl]; rfl
        rw [this] at h3
        exact (H.one s t hs h1 hl h3 v hv).symm
      | none =>
        have he : s.sub = [] := by simpa using hl
        have : (s.cmd x y).args.getLast? = some ('$' :: y) := by
          show (s.pol ++ ['$' :: x, '$' :: y] ++ s.sub).getLast? = _
          rw [he, List.append_nil, List.getLast?_append]; rfl
        rw [this, Option.getD_some, H.isOne _ (sanitize_var y)] at h3
        cases h3
  · exact ⟨s, hs, rfl, fun v _ => rfl⟩

theorem Chain.head {x y : Str} {ss : List Stage} {c : Cmd} {cs : List Cmd}
    (h : Chain x ss y (c :: cs)) : ∃ s ss' z, ss = s :: ss' ∧ c = s.cmd x z ∧
      ((ss' = [] ∧ cs = [] ∧ z = y) ∨ ("__pipe_".toList <+: z ∧ Chain z ss' y cs)) := by
  cases h with
  | one => exact ⟨_, [], y, rfl, rfl, Or.inl ⟨rfl, rfl, rfl⟩⟩
  | cons _ s z hz h => exact ⟨s, _, z, rfl, rfl, Or.inr ⟨hz, h⟩⟩

/-- A command the optimiser leaves alone. -/
def Inert (reg : Registry (World P F)) (c : Cmd) : Prop :=
  c.name ≠ sMultiply ∧ (getIo reg.getSchema c = ([], []) ∨ (c.name = sCopy ∧
    isPipe (getIo reg.getSchema c).1 = false ∧ isPipe (getIo reg.getSchema c).2 = false))

theorem rule1_inert {c : Cmd} (h : Inert reg c) : rule1 isOne reg.getSchema c = (c, false) := by
  unfold rule1
  rw [if_neg fun hh => h.1 hh.1]

theorem inversePair_copy_left (n : Str) : inversePair sCopy n = false := by
  have h1 : (sCopy == sDct2) = false := by decide
  have h2 : (sCopy == sIdct2) = false := by decide
  simp [inversePair, h1, h2]

theorem inversePair_copy_right (n : Str) : inversePair n sCopy = false := by
  have h1 : (sCopy == sDct2) = false := by decide
  have h2 : (sCopy == sIdct2) = false := by decide
  simp [inversePair, h1, h2]

theorem pairRule_inert_left {c d : Cmd} (h : Inert reg c) : pairRule reg.getSchema c d = .none := by
  unfold pairRule
  rcases h.2 with h | ⟨hn, -, hp⟩
  · simp [h]
  · simp only
    split
    · rename_i hh
      rw [hn, inversePair_copy_left, ← hh.2, hp]
      simp
    · rfl

theorem pairRule_inert_right {c d : Cmd} (h : Inert reg d) (hc : (getIo reg.getSchema c).2 ≠ []) :
    pairRule reg.getSchema c d = .none := by
  unfold pairRule
  rcases h.2 with h | ⟨hn, hp, -⟩
  · simp only
    rw [if_neg]
    rw [h]
    exact fun hh => hc hh.2
  · simp only
    split
    · rename_i hh
      rw [hn, inversePair_copy_right, hh.2, hp]
      simp
    · rfl

theorem pass_inert (post : List Cmd) (h : ∀ c ∈ post, Inert reg c) :
    ∀ pend : Option Cmd, (∀ c, pend = some c → Inert reg c) →
      (pass isOne reg.getSchema pend post).1 = pend.toList ++ post := by
  have main : ∀ (post : List Cmd), (∀ c ∈ post, Inert reg c) → ∀ c, Inert reg c →
      (pass isOne reg.getSchema (some c) post).1 = c :: post := by
    intro post
    induction post with
    | nil => intro _ c hc; rw [pass, rule1_inert hc]
    | cons d post ih =>
      intro h c hc
      rw [pass, rule1_inert hc]
      simp only [pairRule_inert_left hc]
      rw [ih (fun e he => h e (by simp [he])) d (h d (by simp))]
  intro pend hp
  cases pend with
  | some c => simpa using main post h c (hp c rfl)
  | none =>
    cases post with
    | nil => rw [pass]; rfl
    | cons c post =>
      rw [pass, main post (fun e he => h e (by simp [he])) c (h c (by simp))]
      rfl

theorem pass_chain (H : ChainOk isOne reg Good den ok) (post : List Cmd)
    (hpost : ∀ c ∈ post, Inert reg c) :
    ∀ (n : Nat) (cs : List Cmd), cs.length = n → ∀ (x y : Str) (ss : List Stage) (c : Cmd),
      Chain x ss y (c :: cs) → (∀ s ∈ ss, ok s) →
      ∃ ss' out, (pass isOne reg.getSchema (some c) (cs ++ post)).1 = out ++ post ∧
        Chain x ss' y out ∧ (∀ s ∈ ss', ok s) ∧
        ∀ v, Good v → applyAll den ss' v = applyAll den ss v := by
  intro n
  induction n using Nat.strongRecOn with
  | _ n ih =>
  intro cs hcs x y ss c hch hok
  obtain ⟨s, ss1, z, rfl, rfl, hrest⟩ := hch.head
  have hs := hok s (by simp)
  obtain ⟨s1, hs1, hr1, hd1⟩ := rule1_stage H s hs x z
  have hio1 : getIo reg.getSchema (s1.cmd x z) = ('$' :: x, '$' :: z) := getIo_stage (H.stage s1 hs1) x z
  rcases hrest with ⟨rfl, rfl, rfl⟩ | ⟨hz, hch2⟩
  · -- last stage of the chain
    refine ⟨[s1], [s1.cmd x z], ?_, Chain.one _ _ _, by simpa using hs1, ?_⟩
    · rw [List.nil_append]
      cases post with
      | nil => rw [pass, hr1]; rfl
      | cons d post =>
        rw [pass]
        simp only [hr1]
        rw [pairRule_inert_right (hpost d (by simp)) (by rw [hio1]; simp)]
        simp only
        rw [pass_inert post (fun e he => hpost e (by simp [he])) (some d)
          (fun c hc => by cases hc; exact hpost d (by simp))]
        rfl
    · intro v hv
      simp only [applyAll, hd1 v hv]
  · cases cs with
    | nil => cases hch2
    | cons c2 cs2 =>
      obtain ⟨s2, ss2, z2, rfl, rfl, hrest2⟩ := hch2.head
      have hs2 := hok s2 (by simp)
      have hio2 : getIo reg.getSchema (s2.cmd z z2) = ('$' :: z, '$' :: z2) :=
        getIo_stage (H.stage s2 hs2) z z2
      have hlt : cs2.length < n := by simp only [List.length_cons] at hcs; omega
      have hok2 : ∀ t ∈ ss2, ok t := fun t ht => hok t (by simp [ht])
      -- replacing the head of the remaining chain
      have hrep : ∀ (x' : Str) (s' : Stage), Chain x' (s' :: ss2) y (s'.cmd x' z2 :: cs2) := by
        intro x' s'
        rcases hrest2 with ⟨rfl, rfl, rfl⟩ | ⟨hz2, hch3⟩
        · exact Chain.one _ _ _
        · exact Chain.cons _ _ _ hz2 hch3
      have hgood1 := (H.stage s1 hs1).2.2.2
      have hgood2 := (H.stage s2 hs2).2.2.2
      rw [List.cons_append, pass]
      simp only [hr1]
      have hpr : pairRule reg.getSchema (s1.cmd x z) (s2.cmd z z2) =
          if inversePair s1.name s2.name then .collapse ⟨sCopy, ['$' :: x, '$' :: z2]⟩
          else if s1.name = sCopy then .keep (s2.cmd x z2)
          else if s2.name = sCopy then .keep (s1.cmd x z2)
          else .none := by
        unfold pairRule
        simp only [hio1, hio2, isPipe_of_prefix hz, updateIn_stage (H.stage s2 hs2),
          updateOut_stage (H.stage s1 hs1)]
        have hn1 : (s1.cmd x z).name = s1.name := rfl
        have hn2 : (s2.cmd z z2).name = s2.name := rfl
        simp only [hn1, hn2]
        by_cases ha : inversePair s1.name s2.name = true
        · simp [ha]
        · by_cases hb : s1.name = sCopy
          · simp [ha, hb]
          · by_cases hc : s2.name = sCopy
            · simp [ha, hb, hc]
            · simp [ha, hb, hc]
      rw [hpr]
      have hcopy : ∀ t, ok t → t.name = sCopy → t = copyStage := by
        intro t ht hn
        rcases (H.stage t ht).1 with h | h
        · exact h
        · exact absurd hn h.1
      by_cases ha : inversePair s1.name s2.name = true
      · simp only [ha, if_true]
        have hinv : ∀ v, Good v → (den s v).bind (den s2) = some v := by
          intro v hv
          rw [← hd1 v hv]
          exact H.inv s1 s2 hs1 hs2 ha v hv
        have happ : ∀ v, Good v → applyAll den (s :: s2 :: ss2) v = applyAll den ss2 v := by
          intro v hv
          have := hinv v hv
          simp only [applyAll]
          cases h1 : den s v with
          | none => rw [h1] at this; cases this
          | some r =>
            rw [h1] at this
            simp only [Option.bind_some] at this ⊢
            rw [this, Option.bind_some]
        rcases hrest2 with ⟨rfl, rfl, rfl⟩ | ⟨hz2, hch3⟩
        · refine ⟨[copyStage], [copyStage.cmd x z2], ?_, Chain.one _ _ _, by simpa using H.copy, ?_⟩
          · rw [List.nil_append, pass_inert post hpost none (by simp)]
            rfl
          · intro v hv
            rw [happ v hv]
            simp [applyAll, H.copyDen]
        · cases cs2 with
          | nil => cases hch3
          | cons c3 cs3 =>
            obtain ⟨ss', out, e1, e2, e3, e4⟩ := ih cs3.length
              (by simp only [List.length_cons] at hlt; omega) cs3 rfl z2 y ss2 c3 hch3 hok2
            refine ⟨copyStage :: ss', copyStage.cmd x z2 :: out, ?_, Chain.cons _ _ _ hz2 e2, ?_, ?_⟩
            · rw [List.cons_append, pass, e1]
              rfl
            · intro t ht
              rw [List.mem_cons] at ht
              rcases ht with rfl | ht
              · exact H.copy
              · exact e3 t ht
            · intro v hv
              rw [happ v hv]
              simp only [applyAll, H.copyDen, Option.bind_some]
              exact e4 v hv
      · simp only [ha, if_false, Bool.false_eq_true]
        by_cases hb : s1.name = sCopy
        · simp only [hb, if_true]
          obtain rfl := hcopy s1 hs1 hb
          obtain ⟨ss', out, e1, e2, e3, e4⟩ := ih cs2.length hlt cs2 rfl x y (s2 :: ss2) _ (hrep x s2)
            (fun t ht => hok t (List.mem_cons_of_mem _ ht))
          refine ⟨ss', out, e1, e2, e3, fun v hv => ?_⟩
          rw [e4 v hv]
          have : den s v = some v := by rw [← hd1 v hv, H.copyDen]
          simp only [applyAll, this, Option.bind_some]
        · simp only [hb, if_false]
          by_cases hc : s2.name = sCopy
          · simp only [hc, if_true]
            obtain rfl := hcopy s2 hs2 hc
            obtain ⟨ss', out, e1, e2, e3, e4⟩ := ih cs2.length hlt cs2 rfl x y (s1 :: ss2) _ (hrep x s1)
              (fun t ht => by
                rw [List.mem_cons] at ht
                rcases ht with rfl | ht
                · exact hs1
                · exact hok2 t ht)
            refine ⟨ss', out, e1, e2, e3, fun v hv => ?_⟩
            rw [e4 v hv]
            simp only [applyAll, hd1 v hv, H.copyDen]
            cases den s v <;> rfl
          · simp only [hc, if_false]
            obtain ⟨ss', out, e1, e2, e3, e4⟩ := ih cs2.length hlt cs2 rfl z y (s2 :: ss2) _ (hrep z s2)
              (fun t ht => hok t (List.mem_cons_of_mem _ ht))
            refine ⟨s1 :: ss', s1.cmd x z :: out, ?_, Chain.cons _ _ _ hz e2, ?_, ?_⟩
            · rw [e1]; rfl
            · intro t ht
              rw [List.mem_cons] at ht
              rcases ht with rfl | ht
              · exact hs1
              · exact e3 t ht
            · intro v hv
              obtain ⟨r, hr, hg⟩ := hgood1 v hv
              have hr' : den s v = some r := by rw [← hd1 v hv, hr]
              simp only [applyAll, hr, hr', Option.bind_some]
              rw [e4 r hg]
              simp only [applyAll]

/-- One pass over a pipeline with a chain in the middle. -/
theorem pass_pipeline (H : ChainOk isOne reg Good den ok) (pre post cs : List Cmd)
    (hpre : ∀ c ∈ pre, Inert reg c) (hpost : ∀ c ∈ post, Inert reg c) (x y : Str) (ss : List Stage)
    (hch : Chain x ss y cs) (hok : ∀ s ∈ ss, ok s) :
    ∃ ss' out, (pass isOne reg.getSchema none (pre ++ cs ++ post)).1 = pre ++ out ++ post ∧
      Chain x ss' y out ∧ (∀ s ∈ ss', ok s) ∧
      ∀ v, Good v → applyAll den ss' v = applyAll den ss v := by
  cases cs with
  | nil => cases hch
  | cons c cs =>
    obtain ⟨ss', out, e1, e2, e3, e4⟩ := pass_chain H post hpost cs.length cs rfl x y ss c hch hok
    refine ⟨ss', out, ?_, e2, e3, e4⟩
    have key : ∀ pre : List Cmd, (∀ c ∈ pre, Inert reg c) → ∀ d, Inert reg d →
        (pass isOne reg.getSchema (some d) (pre ++ (c :: (cs ++ post)))).1 =
          d :: (pre ++ (out ++ post)) := by
      intro pre
      induction pre with
      | nil =>
        intro _ d hd
        rw [List.nil_append, pass, rule1_inert hd]
        simp only [pairRule_inert_left hd, e1, List.nil_append]
      | cons d2 pre ih =>
        intro h d hd
        rw [List.cons_append, pass, rule1_inert hd]
        simp only [pairRule_inert_left hd]
        rw [ih (fun e he => h e (by simp [he])) d2 (h d2 (by simp))]
        rfl
    cases pre with
    | nil => rw [List.nil_append, List.nil_append, List.cons_append, pass, e1]
    | cons d pre =>
      rw [List.append_assoc, List.cons_append, pass, List.cons_append,
        key pre (fun e he => hpre e (by simp [he])) d (hpre d (by simp))]
      simp

theorem optimize_pipeline (H : ChainOk isOne reg Good den ok) (pre post : List Cmd)
    (hpre : ∀ c ∈ pre, Inert reg c) (hpost : ∀ c ∈ post, Inert reg c) (x y : Str) :
    ∀ (n : Nat) (cs : List Cmd) (ss : List Stage), Chain x ss y cs → (∀ s ∈ ss, ok s) →
      ∀ q, optimizeFuel isOne reg.getSchema n (pre ++ cs ++ post) = some q →
      ∃ ss' out, q = pre ++ out ++ post ∧ Chain x ss' y out ∧ (∀ s ∈ ss', ok s) ∧
        ∀ v, Good v → applyAll den ss' v = applyAll den ss v := by
  intro n
  induction n with
  | zero => intro cs ss _ _ q hq; simp [optimizeFuel] at hq
  | succ n ih =>
    intro cs ss hch hok q hq
    obtain ⟨ss', out, e1, e2, e3, e4⟩ := pass_pipeline H pre post cs hpre hpost x y ss hch hok
    rw [optimizeFuel, e1] at hq
    split at hq
    · obtain ⟨ss2, out2, f1, f2, f3, f4⟩ := ih out ss' e2 e3 q hq
      exact ⟨ss2, out2, f1, f2, f3, fun v hv => (f4 v hv).trans (e4 v hv)⟩
    · simp only [Option.some.injEq] at hq
      exact ⟨ss', out, hq.symm, e2, e3, e4⟩

theorem runCmds_append (a b : List Cmd) (w : World P F) :
    runCmds reg (a ++ b) w =
      if (runCmds reg a w).2 then runCmds reg a w else runCmds reg b (runCmds reg a w).1 := by
  induction a generalizing w with
  | nil => simp [runCmds]
  | cons c a ih =>
    rw [List.cons_append, runCmds, runCmds]
    rcases h : reg.execute w c.name c.args with ⟨w', r⟩
    cases r <;> simp only [ih, if_true]

/-- Executing a chain. -/
theorem run_chain (H : ChainOk isOne reg Good den ok) {x y : Str} {ss : List Stage} {cs : List Cmd}
    (hch : Chain x ss y cs) (hok : ∀ s ∈ ss, ok s) :
    ∀ (w : World P F) (v : Val P), w.ws.retrieveAny x = some v → Good v →
      ∃ w' r, runCmds reg cs w = (w', false) ∧ applyAll den ss v = some r ∧ w'.fs = w.fs ∧
        w'.ws.retrieveAny y = some r ∧
        ∀ m, ¬ SameVar m y → (∀ z, "__pipe_".toList <+: z → ¬ SameVar m z) →
          w'.ws.retrieveAny m = w.ws.retrieveAny m := by
  induction hch with
  | one x s y =>
    intro w v hv hg
    obtain ⟨-, -, hact, hgood⟩ := H.stage s (hok s (by simp))
    obtain ⟨r, hr, -⟩ := hgood v hg
    obtain ⟨rep, hrep, he⟩ := hact w x y v hv
    rw [hr] at he
    refine ⟨{ w with ws := w.ws.put y r }, r, ?_, by simp [applyAll, hr], rfl, ?_, ?_⟩
    · have : reg.execute w (s.cmd x y).name (s.cmd x y).args = _ := he
      rw [runCmds, this]
      cases rep with
      | terminated => exact absurd rfl hrep
      | _ => rfl
    · simp [Workspace.retrieveAny_put]
    · intro m hm _
      rw [sameVar_iff] at hm
      simp [Workspace.retrieveAny_put, hm]
  | cons x s z hz h ih =>
    intro w v hv hg
    obtain ⟨-, -, hact, hgood⟩ := H.stage s (hok s (by simp))
    obtain ⟨r, hr, hgr⟩ := hgood v hg
    obtain ⟨rep, hrep, he⟩ := hact w x z v hv
    rw [hr] at he
    obtain ⟨w', r', f1, f2, f3, f4, f5⟩ := ih (fun t ht => hok t (by simp [ht]))
      { w with ws := w.ws.put z r } r (by simp [Workspace.retrieveAny_put]) hgr
    refine ⟨w', r', ?_, by simp [applyAll, hr, f2], f3, f4, fun m hm hp => ?_⟩
    · have : reg.execute w (s.cmd x z).name (s.cmd x z).args = _ := he
      rw [runCmds, this]
      cases rep with
      | terminated => exact absurd rfl hrep
      | _ => exact f1
    · rw [f5 m hm hp]
      have := hp z hz
      rw [sameVar_iff] at this
      simp [Workspace.retrieveAny_put, this]

end

end TinyDIP.Cli
