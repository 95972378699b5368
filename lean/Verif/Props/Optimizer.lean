import Verif.Lemmas.Chain
import Verif.Props.Pipeline
import Verif.Props.TransformContainer
import Verif.Props.Transform
import Verif.Props.Pixelwise

/-!
# Properties C64, C65 and C68 (lines): the optimiser and the interactive loop
-/

namespace TinyDIP.Props

open TinyDIP.Cli

variable {P F : Type}

/-! ## C64 the optimiser preserves the user's variables -/

theorem copy_acts (reg : Registry (World P F)) (sch : Schema)
    (h : reg.lookup sCopy = some ⟨sch, copyCmd⟩) : ActsAs reg sCopy [] [] some := by
  intro w a b v hv
  refine ⟨.ran, by simp, ?_⟩
  have : copyCmd w ['$' :: a, '$' :: b] = ({ w with ws := w.ws.put b v }, .returned) := by
    simp [copyCmd, isVar, varName, hv]
  simp [Registry.execute, h, this]

/-- A pipeline whose middle part is a chain of transform commands from `$a` to `$b` through pipe
variables. The stages act as operations that succeed on the values that occur (`Good`); a product
with a factor that reads as 1 is the identity on them, and `dct2`/`idct2` are inverse to each other.
The commands before and after the chain are no stages (copies of other variables among them); those after it do not
look at pipe variables other than `$b`. Then executing the optimised pipeline ends like executing the typed
one: same files, and same values in `$b` and in every variable that is no pipe variable.
Full statement: for every pipeline, registry and workspace; see the violations below for what
happens without these hypotheses. -/
theorem C64_partial (isOne : Str → Bool) (reg : Registry (World P F)) (Good : Val P → Prop)
    (den : Stage → Val P → Option (Val P)) (pre chain post : List Cmd) (a b : Str)
    (ss : List Stage) (w w1 : World P F) (v : Val P)
    (hdollar : ∀ t : Str, t.head? = some '$' → isOne t = false)
    (hcopy : reg.lookup "copy".toList = some ⟨independentSchema, copyCmd⟩)
    (hname : ∀ s ∈ ss, s.name ≠ "copy".toList ∧ reg.getSchema s.name = some transformerSchema)
    (hpol : ∀ s ∈ ss, ∀ p ∈ s.pol, PolicyWord p)
    (hact : ∀ s ∈ ss, ActsAs reg s.name s.pol s.sub (den s))
    (hgood : ∀ s ∈ ss, ∀ u, Good u → ∃ r, den s u = some r ∧ Good r)
    (hone : ∀ s ∈ ss, s.name = "multiply".toList → ∀ t, s.sub.getLast? = some t →
      isOne (sanitize t) = true → ∀ u, Good u → den s u = some u)
    (hinv : ∀ s ∈ ss, ∀ t ∈ ss, (s.name = "dct2".toList ∧ t.name = "idct2".toList ∨
      s.name = "idct2".toList ∧ t.name = "dct2".toList) → ∀ u, Good u → (den s u).bind (den t) = some u)
    (hch : Chain a ss b chain)
    (hpre : ∀ c ∈ pre, Bystander reg c) (hpost : ∀ c ∈ post, Bystander reg c)
    (hpost2 : ∀ c ∈ post, ∀ u u' : World P F, Agree b u u' →
      (reg.execute u' c.name c.args).2 = (reg.execute u c.name c.args).2 ∧
        Agree b (reg.execute u c.name c.args).1 (reg.execute u' c.name c.args).1)
    (hrun : runCmds reg pre w = (w1, false)) (hv : w1.ws.retrieveAny a = some v) (hgv : Good v) :
    (runCmds reg (optimize isOne reg.getSchema (pre ++ chain ++ post)) w).2 =
        (runCmds reg (pre ++ chain ++ post) w).2 ∧
      Agree b (runCmds reg (pre ++ chain ++ post) w).1
        (runCmds reg (optimize isOne reg.getSchema (pre ++ chain ++ post)) w).1 := by
  have t1 : "copy".toList = sCopy := by decide
  have t2 : "multiply".toList = sMultiply := by decide
  have t3 : "dct2".toList = sDct2 := by decide
  have t4 : "idct2".toList = sIdct2 := by decide
  rw [t1] at hcopy
  simp only [Bystander, t1, t2, t3, t4] at hname hone hinv hpre hpost
  -- the denotation with the copy stage
  let den' : Stage → Val P → Option (Val P) := fun s => if s = copyStage then some else den s
  let ok : Stage → Prop := fun s => s = copyStage ∨ s ∈ ss
  have hne : ∀ s ∈ ss, s ≠ copyStage := by
    rintro s hs rfl
    exact (hname _ hs).1 rfl
  have hden : ∀ s ∈ ss, den' s = den s := fun s hs => by simp [den', hne s hs]
  have hcopyName : ∀ t : Stage, ok t → t.name ≠ sCopy → t ∈ ss := by
    rintro t (rfl | ht) hn
    · exact absurd rfl hn
    · exact ht
  have H : ChainOk isOne reg Good den' ok := by
    refine ⟨?_, Or.inl rfl, fun v => by simp [den'], ?_, ?_, hdollar⟩
    · rintro s (rfl | hs)
      · refine ⟨Or.inl rfl, by simp [copyStage], ?_, fun v hv => ⟨v, by simp [den'], hv⟩⟩
        have : den' copyStage = some := by simp [den']
        rw [this]
        exact copy_acts reg _ hcopy
      · rw [OkStage, hden s hs]
        exact ⟨Or.inr (hname s hs), hpol s hs, hact s hs, hgood s hs⟩
    · intro s t hs hn hl h1 u hu
      have hs' := hcopyName s hs (by rw [hn]; decide)
      rw [hden s hs']
      exact hone s hs' hn t hl h1 u hu
    · intro s t hs ht hi u hu
      have hi' : s.name = sDct2 ∧ t.name = sIdct2 ∨ s.name = sIdct2 ∧ t.name = sDct2 := by
        simpa [inversePair] using hi
      have hs' := hcopyName s hs (by rcases hi' with h | h <;> rw [h.1] <;> decide)
      have ht' := hcopyName t ht (by rcases hi' with h | h <;> rw [h.2] <;> decide)
      rw [hden s hs', hden t ht']
      exact hinv s hs' t ht' hi' u hu
  have hinert : ∀ c : Cmd, ((c.name = sCopy ∧ ∀ t ∈ c.args, ¬ "$__pipe_".toList <+: t) ∨ (c.name ≠ sCopy ∧ c.name ≠ sMultiply ∧
      ∀ s, reg.getSchema c.name = some s → s.inIdx = none ∨ s.outIdx = none)) → Inert reg c := by
    have t5 : "$__pipe_".toList = pipePrefix := by decide
    rw [t5]
    rintro c (⟨h1, h2⟩ | ⟨h1, h2, h3⟩)
    · refine ⟨by rw [h1]; decide, ?_⟩
      have hs : reg.getSchema c.name = some independentSchema := by
        rw [h1]; unfold Registry.getSchema; rw [hcopy]; rfl
      have hp : ∀ t : Str, t ∈ c.args → isPipe t = false := by
        intro t ht
        by_contra hb
        exact h2 t ht (List.isPrefixOf_iff_prefix.1 (by simpa [isPipe] using hb))
      by_cases hl : 2 ≤ c.args.length
      · right
        have e0 : c.args[0]? = some c.args[0] := by simp
        have e1 : c.args[1]? = some c.args[1] := by simp
        unfold getIo
        rw [if_pos ⟨h1, hl⟩, e0, e1]
        exact ⟨h1, hp _ (by simp), hp _ (by simp)⟩
      · left
        unfold getIo
        rw [if_neg fun h => hl h.2, hs]
        rfl
    · refine ⟨h2, Or.inl ?_⟩
      unfold getIo
      rw [if_neg fun h => h1 h.1]
      split
      · rename_i i o hs
        rcases h3 _ hs with h | h <;> simp at h
      · rfl
  have hokss : ∀ s ∈ ss, ok s := fun s hs => Or.inr hs
  obtain ⟨q, e1, -, -, -⟩ := optimizeFuel_total isOne reg.getSchema
    (2 * (pre ++ chain ++ post).length + 1) (pre ++ chain ++ post)
    (by have := weight_le (pre ++ chain ++ post); omega)
  have ho : optimize isOne reg.getSchema (pre ++ chain ++ post) = q := by
    unfold optimize; rw [e1]; rfl
  obtain ⟨ss', out, rfl, hch', hok', happ⟩ := optimize_pipeline H pre post
    (fun c hc => hinert c (hpre c hc)) (fun c hc => hinert c (hpost c hc)) a b _ chain ss hch hokss q e1
  rw [ho]
  obtain ⟨wa, ra, a1, a2, a3, a4, a5⟩ := run_chain H hch hokss w1 v hv hgv
  obtain ⟨wb, rb, b1, b2, b3, b4, b5⟩ := run_chain H hch' hok' w1 v hv hgv
  have hr : ra = rb := by
    have := happ v hgv
    rw [a2, b2] at this
    exact (Option.some.inj this).symm
  subst hr
  have hagree : Agree b wa wb := by
    refine ⟨by rw [a3, b3], fun m hm => ?_⟩
    by_cases hs : SameVar m b
    · rw [sameVar_iff] at hs
      unfold Workspace.retrieveAny at a4 b4 ⊢
      rw [hs, a4, b4]
    · have hu : UserVar m := hm.resolve_right hs
      rw [a5 m hs fun z hz => hu.not_same hz, b5 m hs fun z hz => hu.not_same hz]
  have hx : ∀ cs : List Cmd, runCmds reg (pre ++ cs ++ post) w =
      if (runCmds reg cs w1).2 then runCmds reg cs w1 else runCmds reg post (runCmds reg cs w1).1 := by
    intro cs
    rw [List.append_assoc, runCmds_append, hrun]
    simp only [Bool.false_eq_true, if_false]
    rw [runCmds_append]
  rw [hx chain, hx out, a1, b1]
  simp only [Bool.false_eq_true, if_false]
  clear hx a1 a2 a3 a4 a5 b1 b2 b3 b4 b5 hpost hch' ho e1
  induction post generalizing wa wb with
  | nil => exact ⟨rfl, hagree⟩
  | cons c post ih =>
    obtain ⟨h1, h2⟩ := hpost2 c (by simp) wa wb hagree
    rw [runCmds, runCmds]
    rcases hA : reg.execute wa c.name c.args with ⟨ua, ra⟩
    rcases hB : reg.execute wb c.name c.args with ⟨ub, rb⟩
    rw [hA, hB] at h1 h2
    simp only at h1 h2
    subst h1
    cases rb with
    | terminated => exact ⟨rfl, h2⟩
    | _ => exact ih (fun d hd => hpost2 d (by simp [hd])) ua ub h2

/-! ### The theorem for real images -/

/-- An image operation as an operation on stored values: images of numbers in, `Image<double>` out
(`dct2` and `idct2` cast to double first, image_operations.h 3813-3837). -/
noncomputable def imageOp (f : Image ℝ → Res (Image ℝ)) : Val (Image ℝ) → Option (Val (Image ℝ))
  | .atom (.image (.num _)) im =>
    match f im with
    | .ok r => some (.atom tyDouble r)
    | _ => none
  | _ => none

/-- The optimiser's commands with the modelled transforms (main.h 2298-2346, 3189-3236, 3838-3990).
`num` reads a number. -/
noncomputable def imgReg (io : FileIO (Image ℝ) F) (num : Str → Option ℝ) :
    Registry (World (Image ℝ) F) :=
  [(sCopy, ⟨independentSchema, copyCmd⟩),
    (sDct2, ⟨transformerSchema, metaTransform io 2 isMasterImage fun _ _ => some (imageOp dct2)⟩),
    (sIdct2, ⟨transformerSchema, metaTransform io 2 isMasterImage fun _ _ => some (imageOp idct2)⟩),
    (sMultiply, ⟨transformerSchema, multiplyCmd io fun t =>
      (num t).map fun x => imageOp fun im => multipliesScalar (· * ·) 0 im x⟩)]

/-- Stages of a line made of `dct2`, `idct2` and `multiply t` with a number `t`, each with any
policy words. -/
def ImgStage (num : Str → Option ℝ) (s : Stage) : Prop :=
  (∀ p ∈ s.pol, PolicyWord p) ∧
    ((s.name = sDct2 ∨ s.name = sIdct2) ∧ s.sub = [] ∨
      s.name = sMultiply ∧ ∃ t x, s.sub = [t] ∧ ¬ PolicyWord t ∧ num (sanitize t) = some x)

/-- What a stage does to a stored value. -/
noncomputable def imgDen (num : Str → Option ℝ) (s : Stage) (v : Val (Image ℝ)) :
    Option (Val (Image ℝ)) :=
  if s.name = sDct2 then checkedOp isMasterImage (imageOp dct2) v
  else if s.name = sIdct2 then checkedOp isMasterImage (imageOp idct2) v
  else checkedOp isMasterData (imageOp fun im => multipliesScalar (· * ·) 0 im
    ((num (sanitize (s.sub.head?.getD []))).getD 0)) v

/-- A non-empty two-dimensional `Image<double>`. -/
def DoubleImage (v : Val (Image ℝ)) : Prop :=
  ∃ im w h f, v = .atom tyDouble im ∧ im.Shows w h f ∧ 0 < w ∧ 0 < h

theorem dct2_total (im : Image ℝ) (w h : Nat) (f : Nat → Nat → ℝ) (s : im.Shows w h f)
    (hw : 0 < w) (hh : 0 < h) :
    (∃ F g, dct2 im = .ok F ∧ F.Shows w h g ∧ idct2 F = .ok im) ∧
      ∃ F g, idct2 im = .ok F ∧ F.Shows w h g ∧ dct2 F = .ok im := by
  constructor
  · obtain ⟨F, e1, e2⟩ := C26_idct2_dct2 im w h f s hw hh
    obtain ⟨F', e1', s1⟩ := dct3OnePlane_shows (stack_one s) (z := 0) (by simp)
    have : dct2 im = .ok F' := by rw [dct2, cast_id s hw hh, Res.ok_bind, e1']
    rw [e1] at this
    cases this
    exact ⟨F, _, e1, s1, e2⟩
  · obtain ⟨F, e1, e2⟩ := C26_dct2_idct2 im w h f s hw hh
    obtain ⟨F', e1', s1⟩ := idct3OnePlane_shows (stack_one s) (z := 0) (by simp)
    have : idct2 im = .ok F' := by rw [idct2, cast_id s hw hh, Res.ok_bind, e1']
    rw [e1] at this
    cases this
    exact ⟨F, _, e1, s1, e2⟩

theorem multiplies_total (im : Image ℝ) (w h : Nat) (f : Nat → Nat → ℝ) (s : im.Shows w h f)
    (hw : 0 < w) (hh : 0 < h) (x : ℝ) :
    ∃ out, multipliesScalar (· * ·) 0 im x = .ok out ∧ out.Shows w h (fun a b => f a b * x) ∧
      (x = 1 → out = im) := by
  have hpos : 0 < im.size.prod := by rw [s.size]; simp; exact ⟨hw, hh⟩
  obtain ⟨out, e, so⟩ : ∃ out, pixelwiseTransform (fun a => a * x) im = .ok out ∧
      out.Shows w h (fun a b => f a b * x) := by
    refine ⟨_, pixelwiseTransform_ok _ s.wf hpos, ?_⟩
    refine Image.Shows.of_data s.w_lt s.h_lt s.fits s.size (by simp [s.len]) ?_
    intro a b ha hb
    simp [s.data? ha hb]
  refine ⟨out, ?_, so, ?_⟩
  · rw [← e]
    exact C09_multiplies_scalar (· * ·) 0 x im s.wf hpos
  · rintro rfl
    exact so.ext s (by intro a b _ _; simp)

/-- Every line made of `dct2`, `idct2` and `multiply` stages from `$a` to `$b`, applied to a non-empty two-dimensional
`Image<double>`: the optimised pipeline leaves the same value in `$b` and in every other user variable as the typed
one (exact arithmetic). A factor is one when it reads as one. Missing: other pixel types, factors that round to one
and chains ending in a file, see the violations. -/
theorem C64_images_partial (io : FileIO (Image ℝ) F) (num : Str → Option ℝ) (isOne : Str → Bool)
    (hone : ∀ t, isOne t = true ↔ num t = some 1)
    (hdollar : ∀ t : Str, t.head? = some '$' → num t = none)
    (a b : Str) (ss : List Stage) (hss : ∀ s ∈ ss, ImgStage num s) (chain : List Cmd)
    (hch : Chain a ss b chain) (w : World (Image ℝ) F) (v : Val (Image ℝ))
    (hv : w.ws.retrieveAny a = some v) (hd : DoubleImage v) :
    (runCmds (imgReg io num) (optimize isOne (imgReg io num).getSchema chain) w).2 =
        (runCmds (imgReg io num) chain w).2 ∧
      Agree b (runCmds (imgReg io num) chain w).1
        (runCmds (imgReg io num) (optimize isOne (imgReg io num).getSchema chain) w).1 := by
  have t1 : "copy".toList = sCopy := by decide
  have t2 : "multiply".toList = sMultiply := by decide
  have t3 : "dct2".toList = sDct2 := by decide
  have t4 : "idct2".toList = sIdct2 := by decide
  have lcopy : (imgReg io num).lookup sCopy = some ⟨independentSchema, copyCmd⟩ := rfl
  have ldct : (imgReg io num).lookup sDct2 =
    some ⟨transformerSchema, metaTransform io 2 isMasterImage fun _ _ => some (imageOp dct2)⟩ := rfl
  have lidct : (imgReg io num).lookup sIdct2 =
    some ⟨transformerSchema, metaTransform io 2 isMasterImage fun _ _ => some (imageOp idct2)⟩ := rfl
  have lmul : (imgReg io num).lookup sMultiply = some ⟨transformerSchema, multiplyCmd io fun t =>
      (num t).map fun x => imageOp fun im => multipliesScalar (· * ·) 0 im x⟩ := rfl
  have n1 : sMultiply ≠ sDct2 := by decide
  have n2 : sMultiply ≠ sIdct2 := by decide
  have n3 : sIdct2 ≠ sDct2 := by decide
  have mimg : isMasterImage tyDouble = true := rfl
  have mdat : isMasterData tyDouble = true := rfl
  have hop : ∀ (check : Ty → Bool) (f : Image ℝ → Res (Image ℝ)) (im out : Image ℝ),
      check tyDouble = true → f im = .ok out →
      checkedOp check (imageOp f) (.atom tyDouble im) = some (.atom tyDouble out) := by
    intro check f im out hc hf
    have : imageOp f (.atom tyDouble im) = some (.atom tyDouble out) := by
      unfold imageOp tyDouble; simp [hf]
    simp [checkedOp, Val.ty, hc, this, Option.filter]
  have key := C64_partial isOne (imgReg io num) DoubleImage (imgDen num) [] chain [] a b ss w w v
    (fun t ht => by
      cases h : isOne t
      · rfl
      · rw [hone, hdollar t ht] at h; cases h)
    (by rw [t1]; exact lcopy)
    (by
      intro s hs
      obtain ⟨-, hn⟩ := hss s hs
      rw [t1]
      rcases hn with ⟨hn | hn, -⟩ | ⟨hn, -⟩ <;> rw [hn] <;> exact ⟨by decide, rfl⟩)
    (fun s hs => (hss s hs).1)
    (by
      intro s hs
      obtain ⟨hp, hn⟩ := hss s hs
      rcases hn with ⟨hn | hn, hsub⟩ | ⟨hn, t, x, hsub, hnp, hx⟩
      · have : imgDen num s = checkedOp isMasterImage (imageOp dct2) := by
          funext v; simp [imgDen, hn]
        rw [this, hn, hsub]
        exact C66_transform_acts io isMasterImage 2 _ _ _ _ ldct s.pol [] _ (by simp) hp
          (fun _ _ => rfl)
      · have : imgDen num s = checkedOp isMasterImage (imageOp idct2) := by
          funext v; simp [imgDen, hn, n3]
        rw [this, hn, hsub]
        exact C66_transform_acts io isMasterImage 2 _ _ _ _ lidct s.pol [] _ (by simp) hp
          (fun _ _ => rfl)
      · have : imgDen num s = checkedOp isMasterData (imageOp fun im => multipliesScalar (· * ·) 0 im x) := by
          funext v; simp [imgDen, hn, n1, n2, hsub, hx]
        rw [this, hn, hsub]
        have hf : argsFilter [t] = [t] := by
          have := hnp
          rw [policyWord_iff'] at this
          simp [argsFilter, this]
        refine C66_transform_acts io isMasterData 3 _ _ _ _ lmul s.pol [t] _ (by simp [hf]) hp ?_
        intro a b
        simp [hf, hx])
    (by
      rintro s hs u ⟨im, w, h, f, rfl, sh, hw, hh⟩
      obtain ⟨hp, hn⟩ := hss s hs
      obtain ⟨⟨F, g, e1, e2, -⟩, G, g', e3, e4, -⟩ := dct2_total im w h f sh hw hh
      rcases hn with ⟨hn | hn, hsub⟩ | ⟨hn, t, x, hsub, hnp, hx⟩
      · refine ⟨_, ?_, F, w, h, g, rfl, e2, hw, hh⟩
        simp only [imgDen, hn, if_true]
        exact hop _ _ _ _ mimg e1
      · refine ⟨_, ?_, G, w, h, g', rfl, e4, hw, hh⟩
        simp only [imgDen, hn, n3, if_true, if_false]
        exact hop _ _ _ _ mimg e3
      · obtain ⟨out, e, so, -⟩ := multiplies_total im w h f sh hw hh x
        refine ⟨_, ?_, out, w, h, _, rfl, so, hw, hh⟩
        simp only [imgDen, hn, n1, n2, if_false, hsub, List.head?_cons, Option.getD_some, hx]
        exact hop _ _ _ _ mdat e)
    (by
      rintro s hs hn t ht h1 u ⟨im, w, h, f, rfl, sh, hw, hh⟩
      rw [t2] at hn
      obtain ⟨hp, hn'⟩ := hss s hs
      rcases hn' with ⟨hn' | hn', -⟩ | ⟨-, t', x, hsub, hnp, hx⟩
      · exact absurd (hn.symm.trans hn') n1
      · exact absurd (hn.symm.trans hn') n2
      · rw [hsub] at ht
        simp only [List.getLast?_singleton, Option.some.injEq] at ht
        subst ht
        rw [hone, hx, Option.some.injEq] at h1
        obtain ⟨out, e, so, h1'⟩ := multiplies_total im w h f sh hw hh x
        obtain rfl := h1' h1
        simp only [imgDen, hn, n1, n2, if_false, hsub, List.head?_cons, Option.getD_some, hx]
        exact hop _ _ _ _ mdat e)
    (by
      rintro s hs t ht hn u ⟨im, w, h, f, rfl, sh, hw, hh⟩
      rw [t3, t4] at hn
      obtain ⟨⟨F, g, e1, e2, e2'⟩, G, g', e3, e4, e4'⟩ := dct2_total im w h f sh hw hh
      rcases hn with ⟨h1, h2⟩ | ⟨h1, h2⟩
      · simp only [imgDen, h1, h2, n3, if_true, if_false]
        rw [hop _ _ _ _ mimg e1, Option.bind_some]
        simp only [imgDen, h2, n3, if_true, if_false]
        exact hop _ _ _ _ mimg e2'
      · simp only [imgDen, h1, h2, n3, if_true, if_false]
        rw [hop _ _ _ _ mimg e3, Option.bind_some]
        simp only [imgDen, h2, n3, if_true, if_false]
        exact hop _ _ _ _ mimg e4')
    hch (by simp) (by simp) (by simp) rfl hv hd
  simpa using key

/-- A line that the optimiser shortens to a single `copy`, as a chain. -/
example : Chain ['a'] [⟨sDct2, [], []⟩, ⟨sMultiply, [sPar], [['1']]⟩, ⟨sIdct2, [], []⟩] ['b']
    [⟨sDct2, ["$a".toList, "$__pipe_0".toList]⟩,
      ⟨sMultiply, [sPar, "$__pipe_0".toList, "$__pipe_1".toList, ['1']]⟩,
      ⟨sIdct2, ["$__pipe_1".toList, "$b".toList]⟩] ∧
    optimize (fun s => s == ['1']) someSchemas
      [⟨sDct2, ["$a".toList, "$__pipe_0".toList]⟩,
      ⟨sMultiply, [sPar, "$__pipe_0".toList, "$__pipe_1".toList, ['1']]⟩,
      ⟨sIdct2, ["$__pipe_1".toList, "$b".toList]⟩] = [⟨sCopy, ["$a".toList, "$b".toList]⟩] := by
  have e1 : "$a".toList = ['$', 'a'] := by decide
  have e2 : "$__pipe_0".toList = '$' :: "__pipe_0".toList := by decide
  have e3 : "$__pipe_1".toList = '$' :: "__pipe_1".toList := by decide
  have e4 : "$b".toList = ['$', 'b'] := by decide
  refine ⟨?_, by decide +kernel⟩
  rw [e1, e2, e3, e4]
  exact Chain.cons _ ⟨sDct2, [], []⟩ _ (by decide) (Chain.cons _ ⟨sMultiply, [sPar], [['1']]⟩ _
    (by decide) (Chain.one _ ⟨sIdct2, [], []⟩ _))

/-- Copies of user variables may stand before and after the stages: in `copy $a $u | dct2 $u | $b` the copy into `$u`
is kept, because `$u` is no pipe variable. -/
example (reg : Registry (World P F)) : Bystander reg ⟨"copy".toList, ["$a".toList, "$u".toList]⟩ ∧
    optimize (fun _ => false) (fun n => if n = sDct2 then some transformerSchema else none)
      [⟨sCopy, ["$a".toList, "$u".toList]⟩, ⟨sDct2, ["$u".toList, "$b".toList]⟩] =
      [⟨sCopy, ["$a".toList, "$u".toList]⟩, ⟨sDct2, ["$u".toList, "$b".toList]⟩] :=
  ⟨Or.inl ⟨rfl, by decide +kernel⟩, by decide +kernel⟩

/-! ### Violations -/

/-- Types: `dct2 $a | idct2 | $b` on an `Image<unsigned char>` computes an `Image<double>`; the
optimised pipeline copies the `Image<unsigned char>`. For every non-empty image. -/
theorem C64_type_violation (io : FileIO (Image ℝ) F) (num : Str → Option ℝ) (isOne : Str → Bool)
    (fs : F) (im : Image ℝ) (w h : Nat) (f : Nat → Nat → ℝ) (s : im.Shows w h f) (hw : 0 < w)
    (hh : 0 < h) :
    let reg := imgReg io num
    let w0 : World (Image ℝ) F := ⟨⟨[(['a'], .atom (.image (.num .uchar)) im)]⟩, fs⟩
    let cmds : List Cmd := [⟨sDct2, [['$', 'a'], pipeVar 0]⟩, ⟨sIdct2, [pipeVar 0, ['$', 'b']]⟩]
    build reg.getSchema ['$', 'b'] (parseLine "dct2 $a | idct2".toList) 0 [] = .ok cmds ∧
    (runCmds reg cmds w0).1.ws.retrieveAny ['b'] = some (.atom tyDouble im) ∧
    (runCmds reg (optimize isOne reg.getSchema cmds) w0).1.ws.retrieveAny ['b'] =
      some (.atom (.image (.num .uchar)) im) := by
  intro reg w0 cmds
  obtain ⟨F', e1, e2⟩ := C26_idct2_dct2 im w h f s hw hh
  have hp : parseLine "dct2 $a | idct2".toList = [[sDct2, ['$', 'a']], [sIdct2]] := by decide +kernel
  have hsch : reg.getSchema = fun n => if n = sCopy then some independentSchema
      else if n = sDct2 ∨ n = sIdct2 ∨ n = sMultiply then some transformerSchema else none := by
    funext n
    show (reg.lookup n).map _ = _
    unfold Registry.lookup
    simp only [reg, imgReg, List.find?_cons]
    by_cases h1 : n = sCopy
    · subst h1; rfl
    by_cases h2 : n = sDct2
    · subst h2; rfl
    by_cases h3 : n = sIdct2
    · subst h3; rfl
    by_cases h4 : n = sMultiply
    · subst h4; rfl
    have b1 : (sCopy == n) = false := by simpa using Ne.symm h1
    have b2 : (sDct2 == n) = false := by simpa using Ne.symm h2
    have b3 : (sIdct2 == n) = false := by simpa using Ne.symm h3
    have b4 : (sMultiply == n) = false := by simpa using Ne.symm h4
    simp [h1, h2, h3, h4, b1, b2, b3, b4]
  refine ⟨?_, ?_, ?_⟩
  · rw [hp, hsch]
    decide +kernel
  · have a1 := C66_transform_acts io isMasterImage 2 (fun _ _ => some (imageOp dct2)) reg sDct2
      transformerSchema rfl [] [] (imageOp dct2) (by simp) (by simp) (fun _ _ => rfl)
    have a2 := C66_transform_acts io isMasterImage 2 (fun _ _ => some (imageOp idct2)) reg sIdct2
      transformerSchema rfl [] [] (imageOp idct2) (by simp) (by simp) (fun _ _ => rfl)
    obtain ⟨r1, n1, x1⟩ := a1 w0 ['a'] ((pipeVar 0).drop 1) (.atom (.image (.num .uchar)) im) rfl
    have d1 : checkedOp isMasterImage (imageOp dct2) (.atom (.image (.num .uchar)) im) =
        some (.atom tyDouble F') := by
      simp [checkedOp, Val.ty, imageOp, e1, Option.filter, isMasterImage, tyDouble]
    rw [d1] at x1
    obtain ⟨r2, n2, x2⟩ := a2 { w0 with ws := w0.ws.put ((pipeVar 0).drop 1) (.atom tyDouble F') }
      ((pipeVar 0).drop 1) ['b'] (.atom tyDouble F') (by simp [Workspace.retrieveAny_put])
    have d2 : checkedOp isMasterImage (imageOp idct2) (.atom tyDouble F') =
        some (.atom tyDouble im) := by
      simp [checkedOp, Val.ty, imageOp, e2, Option.filter, isMasterImage, tyDouble]
    rw [d2] at x2
    have y1 : reg.execute w0 sDct2 [['$', 'a'], pipeVar 0] =
      ({ w0 with ws := w0.ws.put ((pipeVar 0).drop 1) (.atom tyDouble F') }, r1) := x1
    have y2 : reg.execute { w0 with ws := w0.ws.put ((pipeVar 0).drop 1) (.atom tyDouble F') }
      sIdct2 [pipeVar 0, ['$', 'b']] =
      (⟨(w0.ws.put ((pipeVar 0).drop 1) (.atom tyDouble F')).put ['b'] (.atom tyDouble im), fs⟩,
        r2) := x2
    simp only [cmds, runCmds]
    rw [y1]
    cases r1 with
    | terminated => exact absurd rfl n1
    | _ =>
      simp only
      rw [y2]
      cases r2 with
      | terminated => exact absurd rfl n2
      | _ => simp [Workspace.retrieveAny_put]
  · have : optimize isOne reg.getSchema cmds = [⟨sCopy, [['$', 'a'], ['$', 'b']]⟩] := by
      rw [hsch]
      have o1 : ∀ isOne : Str → Bool, optimizeFuel isOne (fun n => if n = sCopy then some independentSchema
        else if n = sDct2 ∨ n = sIdct2 ∨ n = sMultiply then some transformerSchema else none) 5 cmds =
          some [⟨sCopy, [['$', 'a'], ['$', 'b']]⟩] := by
        intro isOne
        rfl
      unfold optimize
      have hl : 2 * cmds.length + 1 = 5 := rfl
      rw [hl, o1]
      rfl
    rw [this]
    rfl

/-- The handler multiplies by the third argument, the optimiser looks at the last one:
`multiply $a 3 1 | $b` is turned into a copy. `mul` is the product with the number a text denotes. -/
theorem C64_factor_violation (io : FileIO Nat Unit) :
    let mul : Str → Option (Val Nat → Option (Val Nat)) := fun t =>
      (parseSize t).map fun n v => match v with
        | .atom ty p => some (.atom ty (n * p))
        | v => some v
    let reg : Registry (World Nat Unit) := [(sCopy, ⟨independentSchema, copyCmd⟩),
      (sMultiply, ⟨transformerSchema, multiplyCmd io mul⟩)]
    let w0 : World Nat Unit := ⟨⟨[(['a'], .atom tyDouble 7)]⟩, ()⟩
    let cmds : List Cmd := [⟨sMultiply, [['$', 'a'], ['$', 'b'], ['3'], ['1']]⟩]
    build reg.getSchema ['$', 'b'] (parseLine "multiply $a 3 1".toList) 0 [] = .ok cmds ∧
    (runCmds reg cmds w0).1.ws.retrieveAny ['b'] = some (.atom tyDouble 21) ∧
    (runCmds reg (optimize (fun t => t == ['1']) reg.getSchema cmds) w0).1.ws.retrieveAny ['b'] =
      some (.atom tyDouble 7) := by
  exact ⟨rfl, rfl, rfl⟩

/-- Input from a file: `multiply a.bmp 1 | $b` loads the image and stores it in `$b`; the optimised
`copy a.bmp $b` does nothing, because `copy` takes variables only. -/
theorem C64_file_violation :
    let io : FileIO Nat Unit := ⟨fun _ _ => some (.atom tyRgb 7), fun _ _ _ => none⟩
    let mul : Str → Option (Val Nat → Option (Val Nat)) := fun t =>
      (parseSize t).map fun n v => match v with
        | .atom ty p => some (.atom ty (n * p))
        | v => some v
    let reg : Registry (World Nat Unit) := [(sCopy, ⟨independentSchema, copyCmd⟩),
      (sMultiply, ⟨transformerSchema, multiplyCmd io mul⟩)]
    let w0 : World Nat Unit := ⟨⟨[]⟩, ()⟩
    let cmds : List Cmd := [⟨sMultiply, ["a.bmp".toList, ['$', 'b'], ['1']]⟩]
    build reg.getSchema ['$', 'b'] (parseLine "multiply a.bmp 1".toList) 0 [] = .ok cmds ∧
    (runCmds reg cmds w0).1.ws.retrieveAny ['b'] = some (.atom tyRgb 7) ∧
    (runCmds reg (optimize (fun t => t == ['1']) reg.getSchema cmds) w0).1.ws.retrieveAny ['b'] =
      none := by
  exact ⟨rfl, rfl, rfl⟩

/-! ## C65 a failing stage -/

/-- Transform commands change nothing when their input variable is missing. -/
theorem C65_transform_skips (io : FileIO P F) (check : Ty → Bool) (minArgs : Nat)
    (setup : List Str → Str → Option (Val P → Option (Val P))) (reg : Registry (World P F))
    (cmd : Str) (schema : Schema)
    (hreg : reg.lookup cmd = some ⟨schema, metaTransform io minArgs check setup⟩)
    (pol sub : List Str) (hpol : ∀ p ∈ pol, PolicyWord p) : SkipsMissing reg cmd pol sub := by
  intro w a b hv
  have hfil : argsFilter (pol ++ ['$' :: a, '$' :: b] ++ sub) =
      ('$' :: a) :: ('$' :: b) :: argsFilter sub := by
    rw [List.append_assoc, argsFilter_pol _ _ hpol]
    simp [argsFilter, isPolicy_var]
  have hload : loadArg io check w ('$' :: a) = .ok none := by
    unfold Workspace.retrieveAny at hv
    simp [loadArg, isVar, varName, hv]
  have : ∃ c, c ≠ Ctl.terminated ∧
      metaTransform io minArgs check setup w (pol ++ ['$' :: a, '$' :: b] ++ sub) = (w, c) := by
    unfold metaTransform
    simp only [hfil, hload]
    split
    · exact ⟨.returned, by simp, rfl⟩
    · split
      · exact ⟨.threw, by simp, rfl⟩
      · exact ⟨.returned, by simp, rfl⟩
  obtain ⟨c, hc, he⟩ := this
  unfold Registry.execute
  simp only [hreg, he]
  cases c with
  | returned => exact ⟨.ran, by simp, rfl⟩
  | threw => exact ⟨.errorReported, by simp, rfl⟩
  | terminated => exact absurd rfl hc

theorem run_failing (reg : Registry (World P F)) (den : Stage → Val P → Option (Val P))
    {i : Nat} {a b : Str} {ss : List Stage} {cs : List Cmd} (hch : PipeChain i a ss b cs)
    (hact : ∀ s ∈ ss, ActsAs reg s.name s.pol s.sub (den s))
    (hskip : ∀ s ∈ ss, SkipsMissing reg s.name s.pol s.sub) :
    ∀ w : World P F, (∀ j, i ≤ j → w.ws.retrieveAny ("__pipe_".toList ++ Nat.toDigits 10 j) = none) →
      ((w.ws.retrieveAny a).bind (applyAll den ss) = none) →
      ∃ w', runCmds reg cs w = (w', false) ∧ w'.fs = w.fs ∧
        ∀ m, UserVar m → w'.ws.retrieveAny m = w.ws.retrieveAny m := by
  have hrun : ∀ (c : Cmd) (cs : List Cmd) (w w' : World P F) (rep : Registry.Report),
      rep ≠ .terminated → reg.execute w c.name c.args = (w', rep) →
      runCmds reg (c :: cs) w = runCmds reg cs w' := by
    intro c cs w w' rep hr he
    rw [runCmds, he]
    cases rep with
    | terminated => exact absurd rfl hr
    | _ => rfl
  induction hch with
  | one i x s y =>
    intro w _ hnone
    cases hx : w.ws.retrieveAny x with
    | none =>
      obtain ⟨rep, hr, he⟩ := hskip s (by simp) w x y hx
      exact ⟨w, by rw [hrun (s.cmd x y) [] w w rep hr he]; rfl, rfl, fun _ _ => rfl⟩
    | some v =>
      obtain ⟨rep, hr, he⟩ := hact s (by simp) w x y v hx
      rw [hx] at hnone
      have hd : den s v = none := by
        simp only [Option.bind_some, applyAll] at hnone
        cases h : den s v with
        | none => rfl
        | some r => rw [h] at hnone; simp at hnone
      rw [hd] at he
      exact ⟨w, by rw [hrun (s.cmd x y) [] w w rep hr he]; rfl, rfl, fun _ _ => rfl⟩
  | @cons i x s ss y cs h ih =>
    intro w habs hnone
    have habs' : ∀ j, i + 1 ≤ j →
        w.ws.retrieveAny ("__pipe_".toList ++ Nat.toDigits 10 j) = none := fun j hj =>
      habs j (by omega)
    have stuck : ∀ rep, rep ≠ Registry.Report.terminated →
        reg.execute w (s.cmd x ("__pipe_".toList ++ Nat.toDigits 10 i)).name
          (s.cmd x ("__pipe_".toList ++ Nat.toDigits 10 i)).args = (w, rep) →
        ∃ w', runCmds reg (s.cmd x ("__pipe_".toList ++ Nat.toDigits 10 i) :: cs) w = (w', false) ∧
          w'.fs = w.fs ∧ ∀ m, UserVar m → w'.ws.retrieveAny m = w.ws.retrieveAny m := by
      intro rep hr he
      rw [hrun _ _ w w rep hr he]
      exact ih (fun t ht => hact t (by simp [ht])) (fun t ht => hskip t (by simp [ht])) w habs'
        (by rw [habs i (Nat.le_refl i)]; rfl)
    cases hx : w.ws.retrieveAny x with
    | none =>
      obtain ⟨rep, hr, he⟩ := hskip s (by simp) w x ("__pipe_".toList ++ Nat.toDigits 10 i) hx
      exact stuck rep hr he
    | some v =>
      obtain ⟨rep, hr, he⟩ := hact s (by simp) w x ("__pipe_".toList ++ Nat.toDigits 10 i) v hx
      cases hd : den s v with
      | none =>
        rw [hd] at he
        exact stuck rep hr he
      | some r =>
        rw [hd] at he
        simp only at he
        have hz := hrun (s.cmd x ("__pipe_".toList ++ Nat.toDigits 10 i)) cs w
          { w with ws := w.ws.put ("__pipe_".toList ++ Nat.toDigits 10 i) r } rep hr he
        rw [hz]
        rw [hx, Option.bind_some, applyAll, hd, Option.bind_some] at hnone
        have hpre : ∀ j, pipeVar j = '$' :: ("__pipe_".toList ++ Nat.toDigits 10 j) := by
          intro j
          rw [pipe_text]
          rfl
        have hsan : ∀ j, sanitize ("__pipe_".toList ++ Nat.toDigits 10 j) =
            "__pipe_".toList ++ Nat.toDigits 10 j := by
          intro j
          rw [pipe_text]
          exact sanitize_prefix_toStr _ j (by decide) (by
            intro c hc; simp only [List.head?_cons, Option.some.injEq] at hc; subst hc; unfold Junk; decide)
        obtain ⟨w', f1, f2, f3⟩ := ih (fun t ht => hact t (by simp [ht]))
          (fun t ht => hskip t (by simp [ht]))
          { w with ws := w.ws.put ("__pipe_".toList ++ Nat.toDigits 10 i) r }
          (by
            intro j hj
            have hne : sanitize ("__pipe_".toList ++ Nat.toDigits 10 j) ≠
                sanitize ("__pipe_".toList ++ Nat.toDigits 10 i) := by
              rw [hsan, hsan]
              intro he
              have := pipeVar_inj (i := j) (j := i) (by rw [hpre, hpre, he])
              omega
            simp only [Workspace.retrieveAny_put, hne, if_false]
            exact habs' j hj)
          (by
            simp only [Workspace.retrieveAny_put, if_true, Option.bind_some]
            exact hnone)
        refine ⟨w', f1, f2, fun m hm => ?_⟩
        rw [f3 m hm]
        have := hm.not_same (z := "__pipe_".toList ++ Nat.toDigits 10 i) ⟨_, rfl⟩
        rw [sameVar_iff] at this
        simp only [Workspace.retrieveAny_put, this, if_false]

/-- A line whose chain of transform commands fails somewhere (its input is missing, or some stage is
undefined on the value it gets), in a session without pipe variables of earlier lines from number
`i` on: no user variable and no file changes.
Full statement: for every history; see the violation. The optimiser is not involved in this
theorem: it is about executing the commands as typed. -/
theorem C65_partial (reg : Registry (World P F)) (den : Stage → Val P → Option (Val P))
    (i : Nat) (a b : Str) (ss : List Stage) (cs : List Cmd) (hch : PipeChain i a ss b cs)
    (hact : ∀ s ∈ ss, ActsAs reg s.name s.pol s.sub (den s))
    (hskip : ∀ s ∈ ss, SkipsMissing reg s.name s.pol s.sub)
    (w : World P F)
    (hfresh : ∀ j, i ≤ j → w.ws.retrieveAny ("__pipe_".toList ++ Nat.toDigits 10 j) = none)
    (hfail : (w.ws.retrieveAny a).bind (applyAll den ss) = none) :
    ∃ w', runCmds reg cs w = (w', false) ∧ w'.fs = w.fs ∧
      ∀ m, UserVar m → w'.ws.retrieveAny m = w.ws.retrieveAny m :=
  run_failing reg den hch hact hskip w hfresh hfail

/-- The hypotheses are met: a missing variable and two negations. -/
example : PipeChain 0 ['a'] [⟨"neg".toList, [], []⟩, ⟨"neg".toList, [], []⟩] ['b']
      [⟨"neg".toList, [['$', 'a'], '$' :: ("__pipe_".toList ++ Nat.toDigits 10 0)]⟩,
        ⟨"neg".toList, ['$' :: ("__pipe_".toList ++ Nat.toDigits 10 0), ['$', 'b']]⟩] ∧
    SkipsMissing negReg "neg".toList [] [] ∧
    ActsAs negReg "neg".toList [] [] (checkedOp isMasterData negOp) :=
  ⟨PipeChain.cons _ _ ⟨"neg".toList, [], []⟩ (PipeChain.one _ _ ⟨"neg".toList, [], []⟩ _),
    C65_transform_skips _ _ 2 _ _ _ transformerSchema rfl [] [] (by simp),
    C66_transform_acts _ _ 2 (fun _ _ => some negOp) negReg "neg".toList
      transformerSchema rfl [] [] negOp (by decide) (by simp) (fun a b => rfl)⟩

/-- The variables of a line stay in the session: after `read a.bmp | neg | $x`, the line
`read missing.bmp | neg | $y` fails at its first stage and stores in `$y` the value computed from
`a.bmp`. The session starts with an empty workspace. -/
theorem C65_violation :
    let io : FileIO Int Unit :=
      ⟨fun _ p => if p = "a.bmp".toList then some (.atom tyRgb 7) else none, fun _ _ _ => none⟩
    let reg : Registry (World Int Unit) := [("read".toList, ⟨generatorSchema, readCmd io id⟩),
      ("neg".toList, ⟨transformerSchema, metaTransform io 2 isMasterData fun _ _ => some negOp⟩)]
    let w1 := (runLine (fun _ => false) reg "read a.bmp | neg | $x".toList ⟨⟨[]⟩, ()⟩).1
    let r2 := runLine (fun _ => false) reg "read missing.bmp | neg | $y".toList w1
    r2.2 = .goOn ∧ w1.ws.retrieveAny ['y'] = none ∧
      r2.1.ws.retrieveAny ['y'] = some (.atom tyRgb (-7)) := by
  exact ⟨rfl, rfl, rfl⟩

/-! ## C68 at the prompt -/

/-- A line with an unknown command, no stage before it being `exit` or `quit`, changes nothing, and the session goes
on. Missing: handlers that end the process, see `C68_violation`. -/
theorem C68_unknown_line_partial {σ : Type} (isOne : Str → Bool) (reg : Registry σ) (line : Str)
    (st : σ) (i : Nat) (name : Str) (rest : List Str)
    (hi : (splitFinal (parseLine line)).1[i]? = some (name :: rest))
    (hname : reg.getSchema name = none) (hx : name ≠ "exit".toList ∧ name ≠ "quit".toList)
    (hbefore : ∀ j < i, ∀ seg, (splitFinal (parseLine line)).1[j]? = some seg →
      seg.head?.getD [] ≠ "exit".toList ∧ seg.head?.getD [] ≠ "quit".toList) :
    runLine isOne reg line st = (st, .goOn) := by
  have e1 : "exit".toList = sExit := by decide
  have e2 : "quit".toList = sQuit := by decide
  rw [e1, e2] at hx hbefore
  have key : ∀ (segs : List (List Str)) (i j : Nat) (prev final : Str),
      segs[i]? = some (name :: rest) →
      (∀ j < i, ∀ seg, segs[j]? = some seg → seg.head?.getD [] ≠ sExit ∧ seg.head?.getD [] ≠ sQuit) →
      ∃ n, build reg.getSchema final segs j prev = .unknown n := by
    intro segs
    induction segs with
    | nil => intro i j prev final h; simp at h
    | cons seg segs ih =>
      intro i j prev final h hb
      cases i with
      | zero =>
        simp only [List.getElem?_cons_zero, Option.some.injEq] at h
        subst h
        refine ⟨name, ?_⟩
        simp [build, hx.1, hx.2, hname]
      | succ i =>
        have h0 := hb 0 (by omega) seg rfl
        have hn := fun prev => ih i (j + 1) prev final (by simpa using h)
          (fun k hk s hs => hb (k + 1) (by omega) s (by simpa using hs))
        simp only [build]
        rw [if_neg (by simp [h0.1, h0.2])]
        cases hs : reg.getSchema (seg.head?.getD []) with
        | none => exact ⟨_, rfl⟩
        | some s =>
          obtain ⟨n, hn⟩ := hn (if segs ≠ [] then pipeVar j else final)
          simp only [hn]
          exact ⟨_, rfl⟩
  obtain ⟨n, hn⟩ := key _ i 0 [] (splitFinal (parseLine line)).2 hi hbefore
  have hne : parseLine line ≠ [] := by
    intro he
    rw [he] at hi
    simp [splitFinal] at hi
  unfold runLine
  simp only [hne, if_false, hn]

example : (splitFinal (parseLine "read a.bmp | nosuch 3 | $x".toList)).1[1]? =
    some ["nosuch".toList, ['3']] := by decide +kernel

/-- A line ends the session only through `exit`/`quit` or a handler that terminates the process: when no handler does,
the session never terminates abnormally, whatever the line and the state. Missing: handlers that end the process, see
`C68_violation`. -/
theorem C68_line_partial {σ : Type} (isOne : Str → Bool) (reg : Registry σ) (line : Str) (st : σ)
    (h : ∀ name info, reg.lookup name = some info → ∀ s args, (info.handler s args).2 ≠ .terminated) :
    (runLine isOne reg line st).2 ≠ .terminated ∧
      ((runLine isOne reg line st).2 = .quit → (runLine isOne reg line st).1 = st ∧
        ∃ seg ∈ parseLine line, seg.head? = some "exit".toList ∨ seg.head? = some "quit".toList) := by
  have hrun : ∀ (cs : List Cmd) (s : σ), (runCmds reg cs s).2 = false := by
    intro cs
    induction cs with
    | nil => intro s; rfl
    | cons c cs ih =>
      intro s
      rw [runCmds]
      have : (reg.execute s c.name c.args).2 ≠ .terminated := by
        unfold Registry.execute
        cases hl : reg.lookup c.name with
        | none => simp
        | some info =>
          have := h _ _ hl s c.args
          simp only
          rcases hh : info.handler s c.args with ⟨s', k⟩
          rw [hh] at this
          cases k <;> simp_all
      rcases he : reg.execute s c.name c.args with ⟨s', k⟩
      rw [he] at this
      cases k <;> simp_all
  have hexit : ∀ (segs : List (List Str)) (final : Str) (j : Nat) (prev : Str),
      build reg.getSchema final segs j prev = .exit →
      ∃ seg ∈ segs, seg.head?.getD [] = sExit ∨ seg.head?.getD [] = sQuit := by
    intro segs
    induction segs with
    | nil => intro final j prev h; simp [build] at h
    | cons seg segs ih =>
      intro final j prev h
      simp only [build] at h
      split at h
      · rename_i hx
        exact ⟨seg, by simp, hx⟩
      · split at h
        · cases h
        · split at h
          · cases h
          · obtain ⟨t, ht, hx⟩ := ih _ _ _ h
            exact ⟨t, by simp [ht], hx⟩
  have e1 : "exit".toList = sExit := by decide
  have e2 : "quit".toList = sQuit := by decide
  unfold runLine
  simp only
  split
  · simp
  · cases hb : build reg.getSchema (splitFinal (parseLine line)).2 (splitFinal (parseLine line)).1 0 [] with
    | exit =>
      refine ⟨by simp, fun _ => ⟨rfl, ?_⟩⟩
      obtain ⟨seg, hs, hx⟩ := hexit _ _ _ _ hb
      have hmem : seg ∈ parseLine line := by
        unfold splitFinal at hs
        split at hs
        · split at hs
          · exact List.dropLast_subset _ hs
          · exact hs
        · exact hs
      refine ⟨seg, hmem, ?_⟩
      rw [e1, e2]
      cases seg with
      | nil => simp [sExit, sQuit] at hx
      | cons c seg => simpa using hx
    | unknown n => simp
    | ok cmds =>
      simp only
      rcases hr : runCmds reg (optimize isOne reg.getSchema cmds) st with ⟨s', f⟩
      have := hrun (optimize isOne reg.getSchema cmds) st
      rw [hr] at this
      simp only at this
      subst this
      simp

example : ∀ name info, negReg.lookup name = some info →
    ∀ s args, (info.handler s args).2 ≠ .terminated := by
  intro name info h s args
  have : info.handler = negCmd := by
    unfold Registry.lookup negReg at h
    simp only [List.find?_cons, List.find?_nil] at h
    split at h
    · simp only [Option.map_some, Option.some.injEq] at h; rw [← h]
    · simp at h
  rw [this]
  unfold negCmd metaTransform
  simp only
  repeat' split
  all_goals first
    | (unfold saveArg; split <;> simp)
    | simp

/-- A session with `copy` and a `dct2`, `idct2` that are each other's inverse. -/
def invReg : Registry (World Int Unit) :=
  [("copy".toList, ⟨independentSchema, copyCmd⟩), ("dct2".toList, ⟨transformerSchema, negCmd⟩),
    ("idct2".toList, ⟨transformerSchema, negCmd⟩)]

/-- All hypotheses of `C64_partial` at once: `dct2 $a | idct2 | $b` in that session. -/
example : let w : World Int Unit := ⟨⟨[(['a'], .atom tyRgb 7)]⟩, ()⟩
    let cs : List Cmd := [⟨"dct2".toList, ["$a".toList, "$__pipe_0".toList]⟩,
      ⟨"idct2".toList, ["$__pipe_0".toList, "$b".toList]⟩]
    (runCmds invReg (optimize (fun _ => false) invReg.getSchema cs) w).2 = (runCmds invReg cs w).2 ∧
      Agree ['b'] (runCmds invReg cs w).1
        (runCmds invReg (optimize (fun _ => false) invReg.getSchema cs) w).1 := by
  intro w cs
  have e1 : "$a".toList = ['$', 'a'] := by decide
  have e2 : "$__pipe_0".toList = '$' :: "__pipe_0".toList := by decide
  have e4 : "$b".toList = ['$', 'b'] := by decide
  have hc : Chain ['a'] [⟨"dct2".toList, [], []⟩, ⟨"idct2".toList, [], []⟩] ['b'] cs := by
    show Chain _ _ _ [_, _]
    rw [e1, e2, e4]
    exact Chain.cons _ ⟨"dct2".toList, [], []⟩ _ (by decide) (Chain.one _ ⟨"idct2".toList, [], []⟩ _)
  have hn : ∀ n : Int, checkedOp isMasterData negOp (.atom tyRgb n) = some (.atom tyRgb (-n)) := fun _ => rfl
  have hden : ∀ s ∈ [(⟨"dct2".toList, [], []⟩ : Stage), ⟨"idct2".toList, [], []⟩],
      ActsAs invReg s.name s.pol s.sub (checkedOp isMasterData negOp) := by
    intro s hs
    rcases List.mem_pair.1 hs with rfl | rfl
    · exact C66_transform_acts _ _ 2 (fun _ _ => some negOp) invReg _ transformerSchema rfl [] [] negOp
        (by decide) (by simp) (fun a b => rfl)
    · exact C66_transform_acts _ _ 2 (fun _ _ => some negOp) invReg _ transformerSchema rfl [] [] negOp
        (by decide) (by simp) (fun a b => rfl)
  have := C64_partial (fun _ => false) invReg (fun u => ∃ n : Int, u = .atom tyRgb n)
    (fun _ => checkedOp isMasterData negOp) [] cs [] ['a'] ['b']
    [⟨"dct2".toList, [], []⟩, ⟨"idct2".toList, [], []⟩] w w (.atom tyRgb 7)
    (fun _ _ => rfl) rfl
    (by intro s hs; rcases List.mem_pair.1 hs with rfl | rfl <;> exact ⟨by decide, rfl⟩)
    (by intro s hs; rcases List.mem_pair.1 hs with rfl | rfl <;> simp)
    hden (by rintro s - u ⟨n, rfl⟩; exact ⟨_, hn n, _, rfl⟩)
    (by intro s _ _ t _ h; simp at h)
    (by rintro s - t - - u ⟨n, rfl⟩; rw [hn]; show checkedOp isMasterData negOp _ = _; rw [hn, neg_neg])
    hc (by simp) (by simp) (by simp) rfl rfl ⟨7, rfl⟩
  simpa using this

end TinyDIP.Props
