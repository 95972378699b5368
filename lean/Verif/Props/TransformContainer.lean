import Verif.Lemmas.TransformContainer

/-!
# Property C66: transform_container
-/

namespace TinyDIP.Props

open TinyDIP.Cli

variable {P F : Type}

/-- Transform commands (`abs`, `dct2`, `multiply`, ...) act as an operation on the value, so the
hypothesis of `C66_partial` is met by them: the operation is undefined where the type is not
accepted, parsing fails, the computation throws or the result type is not registered. -/
theorem C66_transform_acts (io : FileIO P F) (check : Ty → Bool) (minArgs : Nat)
    (setup : List Str → Str → Option (Val P → Option (Val P))) (reg : Registry (World P F))
    (cmd : Str) (schema : Schema)
    (hreg : reg.lookup cmd = some ⟨schema, metaTransform io minArgs check setup⟩)
    (pol sub : List Str) (core : Val P → Option (Val P))
    (hmin : minArgs ≤ 2 + (argsFilter sub).length) (hpol : ∀ p ∈ pol, PolicyWord p)
    (hsetup : ∀ a b, setup (('$' :: a) :: ('$' :: b) :: argsFilter sub) (extractPolicy (pol ++ sub)) =
      some core) :
    ActsAs reg cmd pol sub (checkedOp check core) := by
  intro w a b v hv
  have hvar : ∀ a : Str, isPolicy ('$' :: a) = false := by
    intro a; simp [isPolicy, sSeq, sPar, sParUnseq, sUnseq]
  have hfil : argsFilter (pol ++ ['$' :: a, '$' :: b] ++ sub) =
      ('$' :: a) :: ('$' :: b) :: argsFilter sub := by
    have hp : ∀ l : List Str, (∀ p ∈ l, PolicyWord p) → ∀ r, argsFilter (l ++ r) = argsFilter r := by
      intro l hl r
      induction l with
      | nil => rfl
      | cons x l ih =>
        have : isPolicy x = true := by
          have := hl x (by simp)
          simpa [PolicyWord, isPolicy, sSeq, sPar, sParUnseq, sUnseq, or_assoc] using this
        simp only [List.cons_append, argsFilter, this, if_true]
        exact ih fun p hp => hl p (by simp [hp])
    rw [List.append_assoc, hp pol hpol]
    simp [argsFilter, hvar]
  have hext : extractPolicy (pol ++ ['$' :: a, '$' :: b] ++ sub) = extractPolicy (pol ++ sub) := by
    rw [List.append_assoc]
    induction pol with
    | nil => simp [extractPolicy, hvar]
    | cons x l ih =>
      have : isPolicy x = true := by
        have := hpol x (by simp)
        simpa [PolicyWord, isPolicy, sSeq, sPar, sParUnseq, sUnseq, or_assoc] using this
      simp [extractPolicy, this]
  unfold Workspace.retrieveAny at hv
  have hload : loadArg io check w ('$' :: a) =
      .ok (if check v.ty = true then some v else none) := by
    by_cases hc : check v.ty = true <;> simp [loadArg, isVar, varName, hv, hc]
  have hh : ∃ c, c ≠ Ctl.terminated ∧ metaTransform io minArgs check setup w
      (pol ++ ['$' :: a, '$' :: b] ++ sub) =
      ((match checkedOp check core v with
        | some r => { w with ws := w.ws.put b r }
        | none => w), c) := by
    have hm : ¬ (('$' :: a) :: ('$' :: b) :: argsFilter sub).length < minArgs := by
      simp; omega
    unfold metaTransform checkedOp
    simp only [hfil, hext, hm, if_false, hsetup, hload]
    by_cases hc : check v.ty = true
    · simp only [hc, if_true]
      cases hcore : core v with
      | none => exact ⟨.threw, by simp, rfl⟩
      | some r =>
        by_cases hr : check r.ty = true
        · exact ⟨.returned, by simp, by simp [hr, saveArg, isVar, varName, Option.filter]⟩
        · exact ⟨.returned, by simp, by simp [hr, Option.filter]⟩
    · exact ⟨.returned, by simp, by simp [hc]⟩
  obtain ⟨c, hc, he⟩ := hh
  unfold Registry.execute
  simp only [hreg, he]
  cases c with
  | returned => exact ⟨.ran, by simp, rfl⟩
  | threw => exact ⟨.errorReported, by simp, rfl⟩
  | terminated => exact absurd rfl hc

/-- Negation of a number image as a command without further arguments. -/
def negOp : Val Int → Option (Val Int)
  | .atom t p => some (.atom t (-p))
  | v => some v

def negCmd : Handler (World Int Unit) :=
  metaTransform ⟨fun _ _ => none, fun _ _ _ => none⟩ 2 isMasterData fun _ _ => some negOp

def negReg : Registry (World Int Unit) := [("neg".toList, ⟨transformerSchema, negCmd⟩)]

example : negReg.lookup "neg".toList = some ⟨transformerSchema, negCmd⟩ ∧
    ∀ p ∈ ([] : List Str), PolicyWord p := ⟨rfl, by simp⟩

/-- `transform_container [policy] $s $d cmd args...` with a command that succeeds on every element
and gives results of one registered type: `$d` holds the vector of results in order, nothing else
changes (in particular no temporary is left), without a policy as well as under a policy with every
schedule.
Full statement: also when the command fails on some element, when the user has variables with
the temporary names, and for containers of `bool`; see the violations below. -/
theorem C66_partial (io : FileIO P F) (reg : Registry (World P F)) (w : World P F) (sched : List Nat)
    (pol : List Str) (s d cmd : Str) (sub : List Str) (k : Kind) (e t : Ty)
    (x r : Val P) (xs rs : List (Val P)) (f : Val P → Option (Val P))
    (hpol : pol = [] ∨ ∃ p, PolicyWord p ∧ pol = [p])
    (hsub : ∀ a ∈ cmd :: sub, ¬ PolicyWord a)
    (hs : w.ws.retrieveAny s = some (.cont k e (x :: xs)))
    (ht : ContainerTy k e) (hk : ∀ n, k ≠ .array n) (hb : e ≠ .num .bool)
    (hcmd : ActsAs reg cmd pol sub f)
    (hf : (x :: xs).map f = (r :: rs).map some)
    (hrt : ∀ y ∈ r :: rs, y.ty = t) (hrec : DataTy t ∨ t ∈ [.scalar 0, .scalar 1, .scalar 2])
    (hn : NoTemps w)
    (hsched : ∀ i < (x :: xs).length, 5 ≤ sched.count i) :
    ∃ w', transformContainer io reg sched w (pol ++ ['$' :: s, '$' :: d, cmd] ++ sub) =
        (w', .returned) ∧
      w'.ws.retrieveAny d = some (.cont .vector t (r :: rs)) ∧ OnlyVar w w' d := by
  have hvar : ∀ a : Str, isPolicy ('$' :: a) = false := by
    intro a; simp [isPolicy, sSeq, sPar, sParUnseq, sUnseq]
  have hiff : ∀ a : Str, PolicyWord a ↔ isPolicy a = true := by
    intro a
    have e1 : "seq".toList = sSeq := by decide
    have e2 : "par".toList = sPar := by decide
    have e3 : "par_unseq".toList = sParUnseq := by decide
    have e4 : "unseq".toList = sUnseq := by decide
    simp [PolicyWord, isPolicy, or_assoc, e1, e2, e3, e4]
  have hnp : ∀ a ∈ cmd :: sub, isPolicy a = false := fun a ha => by
    have := hsub a ha; rw [hiff] at this; simpa using this
  have hself : ∀ l : List Str, (∀ a ∈ l, isPolicy a = false) → argsFilter l = l ∧ l.filter isPolicy = [] := by
    intro l hl
    constructor
    · induction l with
      | nil => rfl
      | cons a l ih => simp [argsFilter, hl a (by simp), ih fun b hb => hl b (by simp [hb])]
    · rw [List.filter_eq_nil_iff]; intro a ha; simp [hl a ha]
  obtain ⟨g1, g2⟩ := hself (['$' :: s, '$' :: d, cmd] ++ sub) (by
    intro a ha
    simp only [List.cons_append, List.nil_append, List.mem_cons] at ha
    rcases ha with rfl | rfl | ha
    · exact hvar s
    · exact hvar d
    · exact hnp a (by simpa using ha))
  obtain ⟨policy, hp1, hp2, hp3⟩ : ∃ policy : Str, polWords policy = pol ∧
      lastPolicy (pol ++ (['$' :: s, '$' :: d, cmd] ++ sub)) = policy ∧
      argsFilter (pol ++ (['$' :: s, '$' :: d, cmd] ++ sub)) = ['$' :: s, '$' :: d, cmd] ++ sub := by
    rcases hpol with rfl | ⟨p, hp, rfl⟩
    · refine ⟨[], rfl, ?_, g1⟩
      unfold lastPolicy
      rw [List.nil_append, g2]; rfl
    · have hp' := (hiff p).1 hp
      have hpne : p ≠ [] := by rintro rfl; revert hp'; decide
      refine ⟨p, by simp [polWords, hpne], ?_, ?_⟩
      · unfold lastPolicy
        rw [List.filter_append, g2]; simp [hp']
      · show argsFilter (p :: _) = _
        simp only [argsFilter, hp', if_true]
        exact g1
  have hl : loadArg io isAllContainer w ('$' :: s) = .ok (some (.cont k e (x :: xs))) := by
    unfold Workspace.retrieveAny at hs
    simp [loadArg, isVar, varName, hs, Val.ty, containerTy_iff.1 ht]
  have hr : k.resizable = true := by
    cases k with
    | array n => exact absurd rfl (hk n)
    | _ => rfl
  rw [← hp1] at hcmd
  obtain ⟨wd, hd1, hd2⟩ := tcDefault_ok reg cmd policy sub f hcmd (x :: xs) (r :: rs) hf 0 w [] hn
  obtain ⟨wp, hq1, hq2⟩ := tcParallel_ok reg cmd policy sub f hcmd (x :: xs) (r :: rs) hf w hn sched hsched
  rw [List.nil_append] at hd1
  obtain ⟨w1, hw1, hw2⟩ : ∃ w1, dispatchPolicy policy
      (fun _ => tcParallel reg cmd policy sub (x :: xs) sched w)
      (tcDefault reg cmd policy sub (x :: xs) 0 w []) = (w1, .done (r :: rs)) ∧ SameWorld w w1 := by
    unfold dispatchPolicy
    split
    · exact ⟨wp, hq1, hq2⟩
    split
    · exact ⟨wp, hq1, hq2⟩
    split
    · exact ⟨wp, hq1, hq2⟩
    split
    · exact ⟨wp, hq1, hq2⟩
    · exact ⟨wd, hd1, hd2⟩
  have hid : ∀ k' : Kind, (x :: xs).map (elementStored k' e) = x :: xs := by
    intro k'
    rw [List.map_congr_left (g := id), List.map_id]
    intro y _
    unfold elementStored
    split
    · exact absurd rfl hb
    · rfl
  have hrec : isReconstructible t = true := by
    rcases hrec with h | h
    · have := dataTy_iff.1 h
      unfold isReconstructible
      split
      · simp [isMasterData, isMasterImage] at this
      · exact this
    · simp only [List.mem_cons, List.not_mem_nil, or_false] at h
      rcases h with rfl | rfl | rfl <;> rfl
  have hrt' : r.ty = t := hrt r (by simp)
  refine ⟨{ w1 with ws := w1.ws.put d (.cont .vector t (r :: rs)) }, ?_, ?_, ?_⟩
  · rw [List.append_assoc]
    unfold transformContainer
    simp only [hp2, hp3]
    simp only [List.cons_append, List.nil_append, hl, hr, Bool.not_true,
      Bool.false_eq_true, if_false, reduceCtorEq, hid, hw1]
    unfold tcStore
    have hall : rs.all (fun y => decide (y.ty = r.ty)) = true := by
      rw [List.all_eq_true]; intro y hy
      simp [hrt y (by simp [hy]), hrt']
    simp only [hrt', hrec, if_true, varName, List.drop_succ_cons, List.drop_zero]
    rw [hrt'] at hall
    simp only [hall, if_true, reduceCtorEq, if_false]
  · simp [Workspace.retrieveAny_put]
  · refine ⟨hw2.1, fun m hm => ?_⟩
    rw [sameVar_iff] at hm
    simp only [Workspace.retrieveAny_put, hm, if_false]
    exact hw2.2 _

/-- The hypotheses are met by a container of two images and the negation command. -/
example : (∃ f, ActsAs negReg "neg".toList [] [] f ∧
      [Val.atom tyDouble 7, .atom tyDouble 8].map f =
        [Val.atom tyDouble (-7), .atom tyDouble (-8)].map some) ∧
    NoTemps (⟨⟨[(['c'], .cont .vector tyDouble [.atom tyDouble 7, .atom tyDouble 8])]⟩, ()⟩ : World Int Unit) ∧
    (∀ i < 2, 5 ≤ [0, 1, 0, 1, 1, 0, 0, 1, 0, 1].count i) := by
  refine ⟨?_, ?_, ?_⟩
  · exact ⟨_, C66_transform_acts _ _ 2 (fun _ _ => some negOp) negReg "neg".toList
      transformerSchema rfl [] [] negOp (by decide) (by simp) (fun a b => rfl), rfl⟩
  · intro i
    have h1 : "__tc_in_".toList = ['_', '_', 't', 'c', '_', 'i', 'n', '_'] := by decide
    have h2 : "__tc_out_".toList = ['_', '_', 't', 'c', '_', 'o', 'u', 't', '_'] := by decide
    rw [h1, h2]
    have e1 := sanitize_tcIn i
    have e2 := sanitize_tcOut i
    unfold tcIn toStr at e1
    unfold tcOut toStr at e2
    unfold Workspace.retrieveAny Workspace.find
    rw [e1, e2]
    simp
  · decide

/-- An empty container gives an empty vector of the same element type. -/
theorem C66_empty (io : FileIO P F) (reg : Registry (World P F)) (w : World P F) (sched : List Nat)
    (s d cmd : Str) (k : Kind) (e : Ty) (hcmd : ¬ PolicyWord cmd)
    (hs : w.ws.retrieveAny s = some (.cont k e []))
    (ht : ContainerTy k e) (hk : ∀ n, k ≠ .array n) :
    ∃ w', transformContainer io reg sched w ['$' :: s, '$' :: d, cmd] = (w', .returned) ∧
      w'.ws.retrieveAny d = some (.cont .vector e []) ∧ OnlyVar w w' d := by
  have hvar : ∀ a : Str, isPolicy ('$' :: a) = false := by
    intro a; simp [isPolicy, sSeq, sPar, sParUnseq, sUnseq]
  have hc : isPolicy cmd = false := by
    have e1 : "seq".toList = sSeq := by decide
    have e2 : "par".toList = sPar := by decide
    have e3 : "par_unseq".toList = sParUnseq := by decide
    have e4 : "unseq".toList = sUnseq := by decide
    simp only [PolicyWord, e1, e2, e3, e4, List.mem_cons, List.not_mem_nil, or_false, not_or] at hcmd
    simp [isPolicy, hcmd.1, hcmd.2.1, hcmd.2.2.1, hcmd.2.2.2]
  have hl : loadArg io isAllContainer w ('$' :: s) = .ok (some (.cont k e [])) := by
    unfold Workspace.retrieveAny at hs
    simp [loadArg, isVar, varName, hs, Val.ty, containerTy_iff.1 ht]
  have hr : k.resizable = true := by
    cases k with
    | array n => exact absurd rfl (hk n)
    | _ => rfl
  refine ⟨{ w with ws := w.ws.put d (.cont .vector e []) }, ?_, ?_, rfl, fun m hm => ?_⟩
  · simp [transformContainer, argsFilter, hvar, hc, hl, hr, varName]
  · simp [Workspace.retrieveAny_put]
  · rw [sameVar_iff] at hm
    simp [Workspace.retrieveAny_put, hm]

example : (⟨⟨[(['c'], .cont .vector tyDouble [])]⟩, ()⟩ : World Nat Unit).ws.retrieveAny ['c'] =
    some (.cont .vector tyDouble []) := rfl

/-- When the element command fails, the temporary input of that element stays in the workspace:
`transform_container $c $d nosuch`, whatever commands are registered. -/
theorem C66_leftover_violation (io : FileIO Nat Unit) (reg : Registry (World Nat Unit))
    (h : reg.lookup "nosuch".toList = none) :
    let w : World Nat Unit := ⟨⟨[(['c'], .cont .vector tyDouble [.atom tyDouble 7])]⟩, ()⟩
    NoTemps w ∧
    ∃ w', transformContainer io reg [] w ["$c".toList, "$d".toList, "nosuch".toList] = (w', .returned) ∧
      ∃ v, w'.ws.retrieveAny "__tc_in_0".toList = some v := by
  have h2 : "$c".toList = ['$', 'c'] := by decide
  have h3 : "$d".toList = ['$', 'd'] := by decide
  have h4 : "nosuch".toList = ['n', 'o', 's', 'u', 'c', 'h'] := by decide
  rw [h4] at h
  have he : ∀ w args, reg.execute w ['n', 'o', 's', 'u', 'c', 'h'] args = (w, .unknownCommand) := by
    intro w args; simp [Registry.execute, h]
  intro w
  constructor
  · intro i
    have h1 : "__tc_in_".toList = ['_', '_', 't', 'c', '_', 'i', 'n', '_'] := by decide
    have h2 : "__tc_out_".toList = ['_', '_', 't', 'c', '_', 'o', 'u', 't', '_'] := by decide
    rw [h1, h2]
    have e1 := sanitize_tcIn i
    have e2 := sanitize_tcOut i
    unfold tcIn toStr at e1
    unfold tcOut toStr at e2
    unfold Workspace.retrieveAny Workspace.find
    rw [e1, e2]
    simp [w]
  refine ⟨{ w with ws := w.ws.put (tcIn 0) (.atom tyDouble 7) }, ?_, .atom tyDouble 7, ?_⟩
  · rw [h2, h3, h4]
    have hp : lastPolicy [['$', 'c'], ['$', 'd'], ['n', 'o', 's', 'u', 'c', 'h']] = [] := by decide
    have hf : argsFilter [['$', 'c'], ['$', 'd'], ['n', 'o', 's', 'u', 'c', 'h']] =
        [['$', 'c'], ['$', 'd'], ['n', 'o', 's', 'u', 'c', 'h']] := by decide
    have hl : loadArg io isAllContainer w ['$', 'c'] =
        .ok (some (.cont .vector tyDouble [.atom tyDouble 7])) := rfl
    unfold transformContainer
    simp only [hp, hf, hl, Kind.resizable, Bool.not_true, Bool.false_eq_true, if_false, reduceCtorEq]
    have hd : ∀ {β : Type} (f : Policy → β) (d : β), dispatchPolicy [] f d = d := fun f d => rfl
    rw [hd]
    simp only [List.map_cons, List.map_nil, tcDefault, he]
    rfl
  · have : "__tc_in_0".toList = tcIn 0 := by decide
    rw [this]
    simp [Workspace.retrieveAny_put]

example : ([] : Registry (World Nat Unit)).lookup "nosuch".toList = none := rfl

/-- A variable of the user with a temporary name is overwritten and removed, even when the command
succeeds on every element. -/
theorem C66_clobber_violation (io : FileIO Int Unit) :
    let w : World Int Unit := ⟨⟨[(['c'], .cont .vector tyDouble [.atom tyDouble 7]),
      (tcIn 0, .atom tyDouble 1)]⟩, ()⟩
    ∃ w', transformContainer io negReg [] w ["$c".toList, "$d".toList, "neg".toList] = (w', .returned) ∧
      w.ws.retrieveAny "__tc_in_0".toList = some (.atom tyDouble 1) ∧
      w'.ws.retrieveAny "__tc_in_0".toList = none := by
  exact ⟨_, rfl, rfl, rfl⟩

/-- A container of `bool`: the command is handed a reference instead of a value. No command that accepts values of the
registered types only can work on it: nothing is stored without a policy, and with a policy the program is terminated.
Here a vector with one element. -/
theorem C66_bool_violation (io : FileIO P F) (reg : Registry (World P F)) (fs : F) (d cmd : Str) (p : P)
    (f : Val P → Option (Val P)) (hcmd : ¬ PolicyWord cmd)
    (hact : ActsAs reg cmd [] [] f) (hact' : ActsAs reg cmd ["par".toList] [] f)
    (href : ∀ q, f (.atom .boolRef q) = none) :
    let w : World P F := ⟨⟨[(['c'], .cont .vector (.num .bool) [.atom (.num .bool) p])]⟩, fs⟩
    (∃ w', transformContainer io reg [] w ["$c".toList, '$' :: d, cmd] = (w', .returned) ∧
      w'.ws.retrieveAny "__tc_in_0".toList = some (.atom .boolRef p)) ∧
    (transformContainer io reg [0, 0, 0] w ["par".toList, "$c".toList, '$' :: d, cmd]).2 = .terminated := by
  have h2 : "$c".toList = ['$', 'c'] := by decide
  have h3 : "par".toList = sPar := by decide
  have h5 : "__tc_in_0".toList = tcIn 0 := by decide
  rw [h2, h3, h5]
  rw [h3] at hact'
  intro w
  have hc : isPolicy cmd = false := by
    have e1 : "seq".toList = sSeq := by decide
    have e2 : "par".toList = sPar := by decide
    have e3 : "par_unseq".toList = sParUnseq := by decide
    have e4 : "unseq".toList = sUnseq := by decide
    simp only [PolicyWord, e1, e2, e3, e4, List.mem_cons, List.not_mem_nil, or_false, not_or] at hcmd
    simp [isPolicy, hcmd.1, hcmd.2.1, hcmd.2.2.1, hcmd.2.2.2]
  have hvar : ∀ a : Str, isPolicy ('$' :: a) = false := by
    intro a; simp [isPolicy, sSeq, sPar, sParUnseq, sUnseq]
  have hpar : isPolicy sPar = true := by decide
  have hl : loadArg io isAllContainer w ['$', 'c'] =
      .ok (some (.cont .vector (.num .bool) [.atom (.num .bool) p])) := rfl
  let w1 : World P F := { w with ws := w.ws.put (tcIn 0) (.atom .boolRef p) }
  have hin : w1.ws.retrieveAny (tcIn 0) = some (.atom .boolRef p) := by simp [w1, Workspace.retrieveAny_put]
  have hout : w1.ws.retrieveAny (tcOut 0) = none := by
    have e1 := sanitize_tcIn 0
    have e2 := sanitize_tcOut 0
    have : sanitize (tcOut 0) ≠ sanitize (tcIn 0) := by rw [e1, e2]; decide
    rw [show w1.ws = w.ws.put (tcIn 0) (.atom .boolRef p) from rfl, Workspace.retrieveAny_put, if_neg this]
    unfold Workspace.retrieveAny Workspace.find
    rw [e2]
    rfl
  constructor
  · obtain ⟨rep, hrep, he⟩ := hact w1 (tcIn 0) (tcOut 0) _ hin
    rw [href] at he
    simp only [List.nil_append, List.append_nil] at he
    refine ⟨w1, ?_, hin⟩
    have hp : lastPolicy [['$', 'c'], '$' :: d, cmd] = [] := by
      simp [lastPolicy, hvar, hc]
    have hf : argsFilter [['$', 'c'], '$' :: d, cmd] = [['$', 'c'], '$' :: d, cmd] := by
      simp [argsFilter, hvar, hc]
    have hd : ∀ {β : Type} (f : Policy → β) (d : β), dispatchPolicy [] f d = d := fun f d => rfl
    unfold transformContainer
    simp only [hp, hf, hl, Kind.resizable, Bool.not_true, Bool.false_eq_true, if_false, reduceCtorEq, hd]
    have ha : tcArgs [] [] 0 = ['$' :: tcIn 0, '$' :: tcOut 0] := rfl
    have hs : elementStored .vector (.num .bool) (.atom (.num .bool) p) = .atom .boolRef p := rfl
    simp only [List.map_cons, List.map_nil, hs, tcDefault, ha]
    rw [show ({ ws := w.ws.put (tcIn 0) (.atom .boolRef p), fs := w.fs } : World P F) = w1 from rfl, he]
    cases rep with
    | terminated => exact absurd rfl hrep
    | _ => simp only [hout]
  · obtain ⟨rep, hrep, he⟩ := hact' w1 (tcIn 0) (tcOut 0) _ hin
    rw [href] at he
    simp only [List.append_nil] at he
    have hp : lastPolicy [sPar, ['$', 'c'], '$' :: d, cmd] = sPar := by
      simp [lastPolicy, hvar, hc, hpar]
    have hf : argsFilter [sPar, ['$', 'c'], '$' :: d, cmd] = [['$', 'c'], '$' :: d, cmd] := by
      simp [argsFilter, hvar, hc, hpar]
    have hd : ∀ {β : Type} (f : Policy → β) (d : β), dispatchPolicy sPar f d = f .par := fun f d => rfl
    unfold transformContainer
    simp only [hp, hf, hl, Kind.resizable, Bool.not_true, Bool.false_eq_true, if_false, reduceCtorEq, hd]
    have ha : tcArgs sPar [] 0 = [sPar] ++ ['$' :: tcIn 0, '$' :: tcOut 0] := rfl
    have hs : elementStored .vector (.num .bool) (.atom (.num .bool) p) = .atom .boolRef p := rfl
    simp only [List.map_cons, List.map_nil, hs, tcParallel, List.foldl_cons, List.foldl_nil]
    have step0 : tcStep reg cmd sPar [] [.atom .boolRef p] ⟨w, fun _ => 0, fun _ => none, false⟩ 0 =
        ⟨w1, fun j => if j = 0 then 1 else 0, fun _ => none, false⟩ := rfl
    have step1 : tcStep reg cmd sPar [] [.atom .boolRef p]
        ⟨w1, fun j => if j = 0 then 1 else 0, fun _ => none, false⟩ 0 =
        ⟨w1, fun j => if j = 0 then 2 else if j = 0 then 1 else 0, fun _ => none, false⟩ := by
      simp only [tcStep, Bool.false_eq_true, if_false, List.getElem?_cons_zero, if_true, ha, he]
    have step2 : tcStep reg cmd sPar [] [.atom .boolRef p]
        ⟨w1, fun j => if j = 0 then 2 else if j = 0 then 1 else 0, fun _ => none, false⟩ 0 =
        ⟨w1, fun j => if j = 0 then 2 else if j = 0 then 1 else 0, fun _ => none, true⟩ := by
      simp only [tcStep, Bool.false_eq_true, if_false, List.getElem?_cons_zero, if_true, hout]
    rw [step0, step1, step2]
    rfl

/-- Such a command: the negation. -/
example : ActsAs negReg "neg".toList [] [] (checkedOp isMasterData negOp) ∧
    ActsAs negReg "neg".toList ["par".toList] [] (checkedOp isMasterData negOp) ∧
    ∀ q, checkedOp isMasterData negOp (.atom .boolRef q) = none :=
  ⟨C66_transform_acts _ _ 2 (fun _ _ => some negOp) negReg "neg".toList transformerSchema rfl [] [] negOp (by decide)
    (by simp) (fun a b => rfl),
   C66_transform_acts _ _ 2 (fun _ _ => some negOp) negReg "neg".toList transformerSchema rfl ["par".toList] [] negOp
    (by decide) (by simp [PolicyWord]) (fun a b => rfl), fun _ => rfl⟩

end TinyDIP.Props
