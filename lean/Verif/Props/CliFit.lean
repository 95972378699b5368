import Verif.Spec.CliFit
import Verif.Props.CliSift
import Verif.Props.Fit

/-!
# Property theorems: the command estimate_gaussian_params_2d (C172)
-/

namespace TinyDIP.Props

open TinyDIP TinyDIP.Cli TinyDIP.Resample TinyDIP.Fit

variable {F : Type}

theorem given_tail {α : Type} {params : List Str} {a b : Str} {i : Nat} {reads : Str → α → Prop} {dflt v : α} :
    Given (a :: b :: params) (i + 2) reads dflt v ↔ Given params i reads dflt v := by
  unfold Given
  simp

theorem fitCmd_act (io : FileIO PayR F) (dbl : Str → Option ℝ) (ext : Val PayR → Res (Val PayR))
    (order : Str → List Nat) (orders : Str → Nat → List Nat × List Nat) (wd : World PayR F) (args : List Str)
    (v o : Str) (params : List Str) (ha : plainWords args = ('$' :: v) :: o :: params) {n : Nat} {tol : ℝ}
    (hp : AsksFit dbl params n tol) (x : Val PayR) (hv : wd.ws.retrieveAny v = some x) (hx : isMasterData x.ty = true) :
    fitCmd io dbl ext order orders wd args =
      match fitVal ext (order (lastPolicy args)) (orders (lastPolicy args)) n tol x with
      | .ub => .ub
      | .throw _ => raise wd
      | .ok r => deliver wd o r := by
  unfold fitCmd metaScalarArgs
  dsimp only
  rw [argsFilter_eq, ha, if_neg (by simp)]
  dsimp only
  rw [given_size (given_tail.2 hp.1), given_real (given_tail.2 hp.2)]
  dsimp only [Option.bind_eq_bind, Option.bind_some]
  rw [loadVar io isMasterData wd v x hv hx]
  dsimp only [List.headD_cons]
  cases fitVal ext (order (lastPolicy args)) (orders (lastPolicy args)) n tol x <;> rfl

theorem fitCmd_picture (io : FileIO PayR F) (dbl : Str → Option ℝ) (ext : Val PayR → Res (Val PayR))
    (order : Str → List Nat) (orders : Str → Nat → List Nat × List Nat) (wd : World PayR F) (args : List Str)
    (v o : Str) (params : List Str) (ha : plainWords args = ('$' :: v) :: o :: params) {n : Nat} {tol : ℝ}
    (hp : AsksFit dbl params n tol) {w h : Nat} {f : Nat → Nat → ℝ} (hx : HoldsPicture wd v w h f) :
    ∃ im : Image ℝ, im.Shows w h f ∧ fitCmd io dbl ext order orders wd args =
      match estimateGaussianParameters2d im n tol (order (lastPolicy args)) (orders (lastPolicy args)) with
      | .ub => .ub
      | .throw _ => raise wd
      | .ok p => deliver wd o (.atom tyBump (.bump p)) := by
  rcases hx with ⟨im, hv, s⟩ | ⟨im, b, hv, s, hb⟩
  · refine ⟨im, s, ?_⟩
    rw [fitCmd_act io dbl ext order orders wd args v o params ha hp _ hv rfl]
    simp only [fitVal, tyDouble]
    cases estimateGaussianParameters2d im n tol (order (lastPolicy args)) (orders (lastPolicy args)) <;> rfl
  · have sm := map_shows s fun b => (b.toNat : ℝ)
    refine ⟨_, sm.congr fun x y _ _ => (hb x y).symm, ?_⟩
    rw [fitCmd_act io dbl ext order orders wd args v o params ha hp _ hv rfl]
    simp only [fitVal, tyByte]
    cases estimateGaussianParameters2d ⟨im.size, im.data.map fun b => (b.toNat : ℝ)⟩ n tol (order (lastPolicy args))
      (orders (lastPolicy args)) <;> rfl

/-- `estimate_gaussian_params_2d $v $d [iterations [tolerance]]`, with policy words anywhere, stores in `d` a bump
with positive widths and a correlation strictly between -1 and 1: the one the fit starts from, or one with a
strictly smaller squared error, and the former when no iterations are asked for. The picture has at least one
pixel and fewer than 2^31. Missing: the other pictures (`C172_empty_violation`, `C172_large_violation`). -/
theorem C172_fit_partial (io : FileIO PayR F) (dbl : Str → Option ℝ) (ext : Val PayR → Res (Val PayR))
    (order : Str → List Nat) (orders : Str → Nat → List Nat × List Nat) (wd : World PayR F) (args : List Str)
    (v d : Str) (params : List Str) (ha : plainWords args = ('$' :: v) :: ('$' :: d) :: params) (n : Nat) (tol : ℝ)
    (hp : AsksFit dbl params n tol) (w h : Nat) (f : Nat → Nat → ℝ) (hx : HoldsPicture wd v w h f)
    (hn : 0 < w * h) (hlt : w * h < 2 ^ 31) (ho : ∀ policy, Fair (w * h) (order policy) (orders policy)) :
    ∃ start p, StartsAt w h f start ∧
      Stored wd (fitCmd io dbl ext order orders wd args) d (.atom tyBump (.bump p)) ∧
      Proper p ∧ (p = start ∨ squaredError w h f p < squaredError w h f start) ∧ (n = 0 → p = start) := by
  obtain ⟨im, s, e⟩ := fitCmd_picture io dbl ext order orders wd args v ('$' :: d) params ha hp hx
  obtain ⟨start, X, Y, e0, -, b1, b2, b3, b4, b5, b6, b7, b8, b9⟩ := C72_start s hn hlt tol (ho (lastPolicy args))
  obtain ⟨start', p, e1, ep, h1, h2, h3, hor⟩ := C72_fit_partial s hn hlt n tol (ho (lastPolicy args))
  rw [e0] at e1
  injection e1 with e1
  subst e1
  refine ⟨start, p, ⟨X, Y, b1, b2, b3, b4, b5, b6, b7, b8, fun hpos => ?_⟩, ?_, ⟨h1, h2, h3⟩, hor, ?_⟩
  · obtain ⟨-, -, -, c1, c2, c3⟩ := b9 hpos
    exact ⟨c1, c2, c3⟩
  · refine stored_put _ _ _ _ ?_
    rw [e, ep]
    rfl
  · rintro rfl
    rw [e0] at ep
    injection ep with ep
    exact ep.symm

/-- Policy words and schedules make no difference: two calls with the same other words, in sessions that hold the
same picture, store the same bump. -/
theorem C172_schedule (io : FileIO PayR F) (dbl : Str → Option ℝ) (ext : Val PayR → Res (Val PayR))
    (order order' : Str → List Nat) (orders orders' : Str → Nat → List Nat × List Nat) (wd : World PayR F)
    (args args' : List Str) (v d : Str) (params : List Str) (ha : plainWords args = ('$' :: v) :: ('$' :: d) :: params)
    (ha' : plainWords args' = plainWords args) (n : Nat) (tol : ℝ) (hp : AsksFit dbl params n tol) (w h : Nat)
    (f : Nat → Nat → ℝ) (hx : HoldsPicture wd v w h f) (hn : 0 < w * h) (hlt : w * h < 2 ^ 31)
    (ho : ∀ policy, Fair (w * h) (order policy) (orders policy))
    (ho' : ∀ policy, Fair (w * h) (order' policy) (orders' policy)) :
    fitCmd io dbl ext order orders wd args = fitCmd io dbl ext order' orders' wd args' := by
  have key : ∀ x, wd.ws.retrieveAny v = some x → isMasterData x.ty = true →
      fitVal ext (order (lastPolicy args)) (orders (lastPolicy args)) n tol x =
        fitVal ext (order' (lastPolicy args')) (orders' (lastPolicy args')) n tol x →
      fitCmd io dbl ext order orders wd args = fitCmd io dbl ext order' orders' wd args' := by
    intro x hv hm he
    rw [fitCmd_act io dbl ext order orders wd args v _ params ha hp x hv hm,
      fitCmd_act io dbl ext order' orders' wd args' v _ params (ha'.trans ha) hp x hv hm, he]
  rcases hx with ⟨im, hv, s⟩ | ⟨im, b, hv, s, hb⟩
  · refine key _ hv rfl ?_
    simp only [fitVal, tyDouble]
    rw [C72_schedule s hn hlt n tol (ho (lastPolicy args)) (ho' (lastPolicy args'))]
  · refine key _ hv rfl ?_
    simp only [fitVal, tyByte]
    rw [C72_schedule (map_shows s fun b => (b.toNat : ℝ)) hn hlt n tol (ho (lastPolicy args)) (ho' (lastPolicy args'))]

/-- Asking for one more iteration never makes the stored bump worse. -/
theorem C172_more_iterations (io : FileIO PayR F) (dbl : Str → Option ℝ) (ext : Val PayR → Res (Val PayR))
    (order : Str → List Nat) (orders : Str → Nat → List Nat × List Nat) (wd : World PayR F)
    (args args' : List Str) (v d : Str) (n : Nat) (hn64 : n + 1 < 2 ^ 64) (more : List Str)
    (ha : plainWords args = ('$' :: v) :: ('$' :: d) :: Nat.toDigits 10 n :: more)
    (ha' : plainWords args' = ('$' :: v) :: ('$' :: d) :: Nat.toDigits 10 (n + 1) :: more) (tol : ℝ)
    (ht : Given more 0 (Reads dbl) 1e-7 tol) (w h : Nat)
    (f : Nat → Nat → ℝ) (hx : HoldsPicture wd v w h f) (hn : 0 < w * h) (hlt : w * h < 2 ^ 31)
    (ho : ∀ policy, Fair (w * h) (order policy) (orders policy)) :
    ∃ p q, Stored wd (fitCmd io dbl ext order orders wd args) d (.atom tyBump (.bump p)) ∧
      Stored wd (fitCmd io dbl ext order orders wd args') d (.atom tyBump (.bump q)) ∧
      (q = p ∨ squaredError w h f q < squaredError w h f p) := by
  have ht' : ∀ a, Given (a :: more) 1 (Reads dbl) 1e-7 tol := fun a => by
    unfold Given at ht ⊢
    simpa using ht
  have hp : AsksFit dbl (Nat.toDigits 10 n :: more) n tol := ⟨⟨by omega, rfl⟩, ht' _⟩
  have hp' : AsksFit dbl (Nat.toDigits 10 (n + 1) :: more) (n + 1) tol := ⟨⟨by omega, rfl⟩, ht' _⟩
  obtain ⟨im, s, e⟩ := fitCmd_picture io dbl ext order orders wd args v ('$' :: d) _ ha hp hx
  obtain ⟨im', s', e'⟩ := fitCmd_picture io dbl ext order orders wd args' v ('$' :: d) _ ha' hp' hx
  have him : im' = im := Image.Shows.ext s' s fun _ _ _ _ => rfl
  subst him
  obtain ⟨p, q, ep, eq, hor⟩ := C72_more_iterations s hn hlt n tol (ho (lastPolicy args))
  rw [C72_schedule s hn hlt (n + 1) tol (ho (lastPolicy args)) (ho (lastPolicy args'))] at eq
  refine ⟨p, q, stored_put _ _ _ _ ?_, stored_put _ _ _ _ ?_, hor⟩
  · rw [e, ep]; rfl
  · rw [e', eq]; rfl

/-- Violation: on a picture without pixels the command reads past the end of the data. -/
theorem C172_empty_violation (io : FileIO PayR F) (dbl : Str → Option ℝ) (ext : Val PayR → Res (Val PayR))
    (order : Str → List Nat) (orders : Str → Nat → List Nat × List Nat) (wd : World PayR F) (args : List Str)
    (v o : Str) (params : List Str) (ha : plainWords args = ('$' :: v) :: o :: params) (n : Nat) (tol : ℝ)
    (hp : AsksFit dbl params n tol) (w h : Nat) (f : Nat → Nat → ℝ) (hx : HoldsPicture wd v w h f)
    (hn : w * h = 0) : fitCmd io dbl ext order orders wd args = .ub := by
  obtain ⟨im, s, e⟩ := fitCmd_picture io dbl ext order orders wd args v o params ha hp hx
  rw [e, C72_empty_violation s hn]

/-- Violation: on a picture of 2^31 or more pixels the command is undefined. -/
theorem C172_large_violation (io : FileIO PayR F) (dbl : Str → Option ℝ) (ext : Val PayR → Res (Val PayR))
    (order : Str → List Nat) (orders : Str → Nat → List Nat × List Nat) (wd : World PayR F) (args : List Str)
    (v o : Str) (params : List Str) (ha : plainWords args = ('$' :: v) :: o :: params) (n : Nat) (tol : ℝ)
    (hp : AsksFit dbl params n tol) (w h : Nat) (f : Nat → Nat → ℝ) (hx : HoldsPicture wd v w h f)
    (hn : 2 ^ 31 ≤ w * h) : fitCmd io dbl ext order orders wd args = .ub := by
  obtain ⟨im, s, e⟩ := fitCmd_picture io dbl ext order orders wd args v o params ha hp hx
  rw [e, C72_large_violation s hn]

/-- Fewer than two plain words, an unknown variable, or a word after the input that is not a variable: nothing
changes. A count without digits, a tolerance that is not a number, an image of truth values, colours or complex
numbers, a container, or an image that is not planar: the command fails. -/
theorem C172_rejected (io : FileIO PayR F) (dbl : Str → Option ℝ) (ext : Val PayR → Res (Val PayR))
    (order : Str → List Nat) (orders : Str → Nat → List Nat × List Nat) (wd : World PayR F) (args : List Str) :
    ((plainWords args).length < 2 → Nothing wd (fitCmd io dbl ext order orders wd args)) ∧
    (∀ v o more n tol, plainWords args = ('$' :: v) :: o :: more → AsksFit dbl more n tol →
      wd.ws.retrieveAny v = none → Nothing wd (fitCmd io dbl ext order orders wd args)) ∧
    (∀ v o more n tol w h f, plainWords args = ('$' :: v) :: o :: more → AsksFit dbl more n tol →
      o ≠ [] → (∀ d, o ≠ '$' :: d) → HoldsPicture wd v w h f → 0 < w * h → w * h < 2 ^ 31 →
      (∀ policy, Fair (w * h) (order policy) (orders policy)) →
      Nothing wd (fitCmd io dbl ext order orders wd args)) ∧
    (∀ a o more x, plainWords args = a :: o :: more → more[0]? = some x → (∀ c ∈ x, ¬ c.isDigit) →
      Failed wd (fitCmd io dbl ext order orders wd args)) ∧
    (∀ a o more x, plainWords args = a :: o :: more → more[1]? = some x → (∀ s, Means x s → dbl s = none) →
      Failed wd (fitCmd io dbl ext order orders wd args)) ∧
    (∀ v o more n tol t p, plainWords args = ('$' :: v) :: o :: more → AsksFit dbl more n tol →
      t = .image (.num .bool) ∨ t = tyRgb ∨ t = tyHsv ∨ t = tyRgbDouble ∨ t = tyComplex →
      wd.ws.retrieveAny v = some (.atom t p) → Failed wd (fitCmd io dbl ext order orders wd args)) ∧
    (∀ v o more n tol k m items, plainWords args = ('$' :: v) :: o :: more → AsksFit dbl more n tol →
      wd.ws.retrieveAny v = some (.cont k (.num m) items) → Failed wd (fitCmd io dbl ext order orders wd args)) ∧
    (∀ v o more n tol im, plainWords args = ('$' :: v) :: o :: more → AsksFit dbl more n tol → im.size.length ≠ 2 →
      wd.ws.retrieveAny v = some (.atom tyDouble (.real im)) → Failed wd (fitCmd io dbl ext order orders wd args)) := by
  have fail : ∀ a o more, plainWords args = a :: o :: more →
      (optArg parseSize 1000 (a :: o :: more) 2 = none ∨
        optArg (fun a => dbl (sanitize a)) 1e-7 (a :: o :: more) 3 = none) →
      Failed wd (fitCmd io dbl ext order orders wd args) := by
    intro a o more h e
    unfold Failed fitCmd metaScalarArgs
    dsimp only
    rw [argsFilter_eq, h, if_neg (by simp)]
    dsimp only
    rcases e with e | e <;> rw [e]
    · rfl
    · cases optArg parseSize 1000 (a :: o :: more) 2 <;> rfl
  refine ⟨?_, ?_, ?_, ?_, ?_, ?_, ?_, ?_⟩
  · intro h
    unfold Nothing fitCmd metaScalarArgs
    dsimp only
    rw [argsFilter_eq, if_pos h]
    rfl
  · intro v o more n tol h hp hv
    unfold Nothing fitCmd metaScalarArgs
    dsimp only
    rw [argsFilter_eq, h, if_neg (by simp)]
    dsimp only
    rw [given_size (given_tail.2 hp.1), given_real (given_tail.2 hp.2)]
    dsimp only [Option.bind_eq_bind, Option.bind_some]
    rw [loadVar_none io isMasterData wd v fun x hx => by rw [hv] at hx; cases hx]
    rfl
  · intro v o more n tol w h f ha hp ho hd hx hn hlt hord
    obtain ⟨im, s, e⟩ := fitCmd_picture io dbl ext order orders wd args v o more ha hp hx
    obtain ⟨_, p, -, ep, -⟩ := C72_fit_partial s hn hlt n tol (hord (lastPolicy args))
    have hv : isVar o = false := by
      cases o with
      | nil => rfl
      | cons c d =>
        by_cases hc : c = '$'
        · exact (hd d (by rw [hc])).elim
        · simp [isVar, hc]
    unfold Nothing
    rw [e, ep]
    simp only [deliver, Val.ty, tyBump, isMasterScalar, if_true, if_neg ho, hv]
    rfl
  · intro a o more x h hi hx
    refine fail a o more h (.inl ?_)
    unfold optArg
    rw [show (a :: o :: more)[2]? = more[0]? by simp, hi]
    exact parseSize_nodigit hx
  · intro a o more x h hi hx
    refine fail a o more h (.inr ?_)
    unfold optArg
    rw [show (a :: o :: more)[3]? = more[1]? by simp, hi]
    exact hx _ (means_iff.2 rfl)
  · intro v o more n tol t p h hp ht hv
    unfold Failed
    rcases ht with rfl | rfl | rfl | rfl | rfl <;>
      rw [fitCmd_act io dbl ext order orders wd args v o more h hp _ hv rfl] <;> rfl
  · intro v o more n tol k m items h hp hv
    unfold Failed
    rw [fitCmd_act io dbl ext order orders wd args v o more h hp _ hv rfl]
    rfl
  · intro v o more n tol im h hp hd hv
    unfold Failed
    rw [fitCmd_act io dbl ext order orders wd args v o more h hp _ hv rfl]
    simp only [fitVal, tyDouble]
    rw [C72_dimension im hd]
    rfl

/-! A session in which `a` holds a 3×2 picture; three iterations, the policy in the middle. -/

noncomputable def fitWorld : World PayR Unit := ⟨⟨[("a".toList, .atom tyDouble (.real demo))]⟩, ()⟩

theorem fitWorld_holds : HoldsPicture fitWorld "a".toList 3 2 fun _ _ => 1 :=
  .inl ⟨demo, rfl, demo_shows⟩

example (io : FileIO PayR Unit) (dbl : Str → Option ℝ) (ext : Val PayR → Res (Val PayR)) :
    ∃ start p, StartsAt 3 2 (fun _ _ => 1) start ∧
      Stored fitWorld (fitCmd io dbl ext (fun _ => List.range 6) (fun _ _ => (List.range 6, List.range 6)) fitWorld
        ["$a".toList, "par".toList, "$b".toList, "3".toList]) "b".toList (.atom tyBump (.bump p)) ∧
      Proper p ∧ (p = start ∨ squaredError 3 2 (fun _ _ => 1) p < squaredError 3 2 (fun _ _ => 1) start) ∧
      (3 = 0 → p = start) :=
  C172_fit_partial io dbl ext _ _ fitWorld _ "a".toList "b".toList ["3".toList] (by decide +kernel) 3 1e-7
    ⟨⟨by norm_num, by decide +kernel⟩, rfl⟩ 3 2 _ fitWorld_holds (by norm_num) (by norm_num) fun _ => fair_range 6

/-- The same picture with one iteration more, in another order of the words. -/
example (io : FileIO PayR Unit) (dbl : Str → Option ℝ) (ext : Val PayR → Res (Val PayR)) :
    ∃ p q, Stored fitWorld (fitCmd io dbl ext (fun _ => List.range 6) (fun _ _ => (List.range 6, List.range 6)) fitWorld
        ["$a".toList, "par".toList, "$b".toList, "3".toList]) "b".toList (.atom tyBump (.bump p)) ∧
      Stored fitWorld (fitCmd io dbl ext (fun _ => List.range 6) (fun _ _ => (List.range 6, List.range 6)) fitWorld
        ["$a".toList, "$b".toList, "4".toList]) "b".toList (.atom tyBump (.bump q)) ∧
      (q = p ∨ squaredError 3 2 (fun _ _ => 1) q < squaredError 3 2 (fun _ _ => 1) p) :=
  C172_more_iterations io dbl ext _ _ fitWorld _ _ "a".toList "b".toList 3 (by norm_num) [] (by decide +kernel)
    (by decide +kernel) 1e-7 rfl 3 2 _ fitWorld_holds (by norm_num) (by norm_num) fun _ => fair_range 6

example (io : FileIO PayR Unit) (dbl : Str → Option ℝ) (ext : Val PayR → Res (Val PayR)) :=
  C172_schedule io dbl ext (fun _ => List.range 6) (fun _ => (List.range 6).reverse)
    (fun _ _ => (List.range 6, List.range 6)) (fun _ _ => ((List.range 6).reverse, List.range 6)) fitWorld
    ["$a".toList, "par".toList, "$b".toList, "3".toList] ["$a".toList, "$b".toList, "3".toList, "unseq".toList]
    "a".toList "b".toList ["3".toList] (by decide +kernel) (by decide +kernel) 3 1e-7
    ⟨⟨by norm_num, by decide +kernel⟩, rfl⟩ 3 2 _ fitWorld_holds (by norm_num) (by norm_num) (fun _ => fair_range 6)
    (fun _ => ⟨List.reverse_perm _, fun _ => ⟨List.reverse_perm _, List.Perm.refl _⟩⟩)

end TinyDIP.Props
