import Verif.Model.CliAbs
import Verif.Props.CliTransform
import Verif.Props.CliBinary

/-!
# Property C148: the command abs
-/

namespace TinyDIP.Props

open TinyDIP.Cli TinyDIP.Arith

variable {F : Type}

/-- The execution policy a command with these arguments uses: the first policy word, if any. -/
def firstPolicy (args : List Str) : Option Str := args.find? fun a => PolicyWord a

theorem extractPolicy_first (args : List Str) : extractPolicy args = (firstPolicy args).getD [] := by
  induction args with
  | nil => rfl
  | cons a as ih =>
    unfold firstPolicy at *
    rw [extractPolicy, List.find?_cons]
    by_cases h : isPolicy a = true
    · simp [h, policyWord_iff']
    · simp [h, policyWord_iff', ih]

theorem absNum_ok {n : Num} {q : ℚ} (hq : Fits n q) (hm : n = .int → q ≠ -2 ^ 31) : absNum n q = .ok |q| := by
  have key : (if q < 0 then -q else q) = |q| := by
    split
    · rw [abs_of_neg ‹_›]
    · rw [abs_of_nonneg (not_lt.1 ‹_›)]
  cases n with
  | bool => rcases hq with rfl | rfl <;> simp [absNum]
  | uchar => obtain ⟨k, _, rfl⟩ := hq; simp [absNum]
  | sizeT => obtain ⟨k, _, rfl⟩ := hq; simp [absNum]
  | int => rw [absNum, if_neg (hm rfl), key]
  | double => rw [absNum, key]

theorem absEach_ok {n : Num} {l : List ℚ} (hq : ∀ q ∈ l, Fits n q) (hm : n = .int → -2 ^ 31 ∉ l) :
    absEach n l = .ok (l.map fun q => |q|) := by
  induction l with
  | nil => rfl
  | cons q l ih =>
    rw [absEach, absNum_ok (hq q (by simp)) (fun h e => hm h (by simp [e])), Res.ok_bind,
      ih (fun q' h => hq q' (by simp [h])) (fun h e => hm h (by simp [e])), Res.ok_bind]
    rfl

theorem absOrder_ok {n : Num} {l : List ℚ} (order : List Nat) (ho : order.Perm (List.range l.length))
    (hq : ∀ q ∈ l, Fits n q) (hm : n = .int → -2 ^ 31 ∉ l) :
    absOrder n order l = .ok (l.map fun q => |q|) := by
  rw [absOrder, loop_listMap l rfl (fun q => |q|) _ order _ _ (by simp) ho]
  intro i hi q hq' d hd
  have hmem := List.mem_of_getElem? hq'
  have hlt : i < d.length := by rw [hd]; exact (List.getElem?_eq_some_iff.1 hq').1
  simp [vget, hq', absNum_ok (hq q hmem) (fun h e => hm h (e ▸ hmem)), vset, hlt]

theorem absData_ok {n : Num} {l : List ℚ} (order : Nat → List Nat)
    (ho : ∀ k, (order k).Perm (List.range k)) (policy : Str) (packed : Bool)
    (hp : packed = true → n = .bool → policy ≠ sPar ∧ policy ≠ sParUnseq)
    (hq : ∀ q ∈ l, Fits n q) (hm : n = .int → -2 ^ 31 ∉ l) :
    absData order policy packed n l = .ok (l.map fun q => |q|) := by
  have h2 := absOrder_ok (order l.length) (ho _) hq hm
  have key : ∀ p, (packed = true → n = .bool → p ≠ .par ∧ p ≠ .parUnseq) →
      packedRace packed n p l.length = false := by
    intro p h
    unfold packedRace
    cases packed
    · rfl
    · by_cases hn : n = .bool
      · obtain ⟨h1, h2⟩ := h rfl hn
        simp [h1, h2]
      · simp [hn]
  unfold absData dispatchPolicy
  split
  · rename_i h
    simpa [key .par (fun a b => absurd h (hp a b).1)] using h2
  · split
    · rename_i h
      simpa [key .parUnseq (fun a b => absurd h (hp a b).2)] using h2
    · split
      · simpa [key .unseq (fun _ _ => ⟨by simp, by simp⟩)] using h2
      · split
        · simpa [key .seq (fun _ _ => ⟨by simp, by simp⟩)] using h2
        · exact absEach_ok hq hm

theorem absImage_ok {n : Num} {im : Image ℚ} (wf : im.WF) (h0 : 0 < im.size.prod) (order : Nat → List Nat)
    (ho : ∀ k, (order k).Perm (List.range k)) (policy : Str)
    (hp : n = .bool → policy ≠ sPar ∧ policy ≠ sParUnseq)
    (hq : ∀ q ∈ im.data, Fits n q) (hm : n = .int → -2 ^ 31 ∉ im.data) :
    absImage order policy n im = .ok ⟨im.size, im.data.map fun q => |q|⟩ := by
  rw [absImage, absData_ok order ho policy true (fun _ => hp) hq hm, Res.ok_bind,
    ofData_ok (by simpa using wf.len) wf.fits h0]

/-- `abs $v $e` of a non-empty image of numbers stores the image of the absolute values, with the same type and
size; policy words and the order in which a policy visits the pixels make no difference.
Full statement: for all images. The smallest `int` has no absolute value (`C148_overflow_violation`), and
truth values must not be processed in parallel (`C148_bool`, `C148_bool_race_violation`). -/
theorem C148_images_partial (io : FileIO Pay F) (ext : Val Pay → Act (Val Pay)) (order : Nat → List Nat)
    (ho : ∀ k, (order k).Perm (List.range k)) (more : List Str) (n : Num) (hn : n ≠ .bool) (im : Image ℚ)
    (wf : im.WF) (h0 : 0 < im.size.prod) (hq : ∀ q ∈ im.data, Fits n q)
    (hm : n = .int → -2 ^ 31 ∉ im.data) :
    Gives (absCmd io ext order) more (numImage n im) (numImage n ⟨im.size, im.data.map fun q => |q|⟩) := by
  apply gives_of (by omega) _ rfl rfl
  intro a b policy
  refine ⟨_, rfl, ?_⟩
  simp only [numImage, absVal]
  rw [absImage_ok wf h0 order ho policy (fun h => absurd h hn) hq hm]

/-- `abs $v $e` of an `RGB`, `HSV` or `RGB_DOUBLE` image stores the image with the absolute values in every
channel. -/
theorem C148_colour (io : FileIO Pay F) (ext : Val Pay → Act (Val Pay)) (order : Nat → List Nat)
    (ho : ∀ k, (order k).Perm (List.range k)) (more : List Str) (ty : Ty)
    (ht : ty ∈ [Ty.image (.scalar 10), .image (.scalar 11), .image (.scalar 12)]) (im : Image (Px3 ℚ))
    (wf : im.WF) (h0 : 0 < im.size.prod)
    (hb : ty = .image (.scalar 10) → ∀ p ∈ im.data, Fits .uchar p.c0 ∧ Fits .uchar p.c1 ∧ Fits .uchar p.c2) :
    Gives (absCmd io ext order) more (.atom ty (.image3 im))
      (.atom ty (.image3 ⟨im.size, im.data.map fun p => ⟨|p.c0|, |p.c1|, |p.c2|⟩⟩)) := by
  have key : ∀ n policy, n ≠ Num.bool → n ≠ .int →
      (∀ p ∈ im.data, Fits n p.c0 ∧ Fits n p.c1 ∧ Fits n p.c2) →
      applyEach 0 0 (absImage order policy n) im =
        .ok ⟨im.size, im.data.map fun p => ⟨|p.c0|, |p.c1|, |p.c2|⟩⟩ := by
    intro n policy h1 h2 hf
    have g : ∀ ch : Px3 ℚ → ℚ, (∀ p ∈ im.data, Fits n (ch p)) →
        absImage order policy n ⟨im.size, im.data.map ch⟩ = .ok ⟨im.size, (im.data.map ch).map fun q => |q|⟩ := by
      intro ch hch
      refine absImage_ok (wf.map ch) h0 order ho policy (fun h => absurd h h1) ?_ (fun h => absurd h h2)
      intro q hq
      obtain ⟨p, hp, rfl⟩ := List.mem_map.1 hq
      exact hch p hp
    rw [applyEach_ok _ _ _ im wf h0, g Px3.c0 (fun p hp => (hf p hp).1), Res.ok_bind,
      g Px3.c1 (fun p hp => (hf p hp).2.1), Res.ok_bind, g Px3.c2 (fun p hp => (hf p hp).2.2), Res.ok_bind]
    have := constructPx3Ord_ok (0 : ℚ) im.size
      (im.data.map fun p => (⟨|p.c0|, |p.c1|, |p.c2|⟩ : Px3 ℚ)) (by simpa using wf.len) wf.fits h0
      (List.range im.size.prod) (by rw [List.length_map, wf.len])
    simp only [List.map_map, Function.comp_def] at this ⊢
    rw [constructPx3]
    convert this using 2
    simp [Image.count, prodW_of_lt wf.fits]
  have hmaster : isMasterData (Ty.image (.scalar 10)) = true ∧ isMasterData (Ty.image (.scalar 11)) = true ∧
    isMasterData (Ty.image (.scalar 12)) = true := ⟨rfl, rfl, rfl⟩
  have hty : isMasterData ty = true := by
    simp only [List.mem_cons, List.not_mem_nil, or_false] at ht
    rcases ht with rfl | rfl | rfl <;> rfl
  apply gives_of (by omega) _ hty hty
  intro a b policy
  refine ⟨_, rfl, ?_⟩
  simp only [List.mem_cons, List.not_mem_nil, or_false] at ht
  rcases ht with rfl | rfl | rfl
  · simp only [absVal]
    rw [show channelNum 10 = some .uchar from rfl]
    dsimp only
    rw [key .uchar policy (by simp) (by simp) (hb rfl)]
  · simp only [absVal]
    rw [show channelNum 11 = some .double from rfl]
    dsimp only
    rw [key .double policy (by simp) (by simp) (fun _ _ => ⟨trivial, trivial, trivial⟩)]
  · simp only [absVal]
    rw [show channelNum 12 = some .double from rfl]
    dsimp only
    rw [key .double policy (by simp) (by simp) (fun _ _ => ⟨trivial, trivial, trivial⟩)]

example (io : FileIO Pay F) (ext : Val Pay → Act (Val Pay)) := C148_colour io ext (fun k => (List.range k).reverse)
  (fun k => (List.range k).reverse_perm) [] (.image (.scalar 12)) (by simp) ⟨[2, 1], [⟨-1, 2, 1 / 2⟩, ⟨3, -4, 0⟩]⟩
  ⟨by decide, by decide, by decide⟩ (by decide) (fun h => absurd h (by decide))

/-- `abs $v $e` of a container of numbers stores the container of the absolute values.
Full statement: for all containers; see `C148_overflow_violation` and, for `std::vector<bool>`,
`C148_bool`. -/
theorem C148_containers_partial (io : FileIO Pay F) (ext : Val Pay → Act (Val Pay)) (order : Nat → List Nat)
    (ho : ∀ k, (order k).Perm (List.range k)) (more : List Str) (k : Kind) (n : Num)
    (hn : ¬ (k = .vector ∧ n = .bool)) (l : List ℚ) (hq : ∀ q ∈ l, Fits n q)
    (hm : n = .int → -2 ^ 31 ∉ l) :
    Gives (absCmd io ext order) more (.cont k (.num n) (l.map fun q => .atom (.num n) (.num q)))
      (.cont k (.num n) (l.map fun q => .atom (.num n) (.num |q|))) := by
  apply gives_of (by omega) _ rfl rfl
  intro a b policy
  refine ⟨_, rfl, ?_⟩
  simp only [absVal]
  rw [mapM_itemNum]
  dsimp only
  rw [absData_ok order ho policy _ (fun h1 h2 => absurd ⟨of_decide_eq_true h1, h2⟩ hn) hq hm]
  simp [numVal, Function.comp_def]

example (io : FileIO Pay F) (ext : Val Pay → Act (Val Pay)) := C148_containers_partial io ext (fun k => (List.range k).reverse)
  (fun k => (List.range k).reverse_perm) [] .deque .int (by simp) [-7, 5]
  (by
    intro q hq
    simp only [List.mem_cons, List.not_mem_nil, or_false] at hq
    rcases hq with rfl | rfl
    · exact ⟨-7, by norm_num⟩
    · exact ⟨5, by norm_num⟩)
  (fun _ h => by
    simp only [List.mem_cons, List.not_mem_nil, or_false] at h
    rcases h with h | h <;> norm_num at h)

/-- Truth values are their own absolute values: `abs $v $e` copies an image or vector of them, unless the
first policy word is `par` or `par_unseq`. -/
theorem C148_bool (io : FileIO Pay F) (ext : Val Pay → Act (Val Pay)) (order : Nat → List Nat)
    (ho : ∀ k, (order k).Perm (List.range k)) (wd : World Pay F) (args : List Str) (v e : Str) (more : List Str)
    (ha : plainWords args = ('$' :: v) :: ('$' :: e) :: more)
    (hp : firstPolicy args ≠ some "par".toList ∧ firstPolicy args ≠ some "par_unseq".toList) :
    (∀ im : Image ℚ, im.WF → 0 < im.size.prod → (∀ q ∈ im.data, q = 0 ∨ q = 1) →
      wd.ws.retrieveAny v = some (numImage .bool im) →
      Stored wd (absCmd io ext order wd args) e (numImage .bool im)) ∧
    (∀ l : List ℚ, (∀ q ∈ l, q = 0 ∨ q = 1) →
      wd.ws.retrieveAny v = some (.cont .vector (.num .bool) (l.map fun q => .atom (.num .bool) (.num q))) →
      Stored wd (absCmd io ext order wd args) e
        (.cont .vector (.num .bool) (l.map fun q => .atom (.num .bool) (.num q)))) := by
  have hpol : extractPolicy args ≠ sPar ∧ extractPolicy args ≠ sParUnseq := by
    rw [extractPolicy_first]
    cases hf : firstPolicy args with
    | none => exact ⟨by decide +kernel, by decide +kernel⟩
    | some p =>
      rw [hf] at hp
      exact ⟨fun h => hp.1 (congrArg some h), fun h => hp.2 (congrArg some h)⟩
  have hab : ∀ l : List ℚ, (∀ q ∈ l, q = 0 ∨ q = 1) → l.map (fun q => |q|) = l := by
    intro l hl
    conv_rhs => rw [← List.map_id l]
    apply List.map_congr_left
    intro q hq
    rcases hl q hq with rfl | rfl <;> simp
  rw [← argsFilter_eq] at ha
  refine ⟨fun im wf h0 hq hv => ?_, fun l hq hv => ?_⟩
  · refine transformU_step io 2 isMasterData _ wd args v e more _ _ _ ha (by omega) rfl hv rfl ?_ rfl
    simp only [numImage, absVal]
    rw [absImage_ok (n := .bool) wf h0 order ho _ (fun _ => hpol) hq (by simp), hab _ hq]
  · refine transformU_step io 2 isMasterData _ wd args v e more _ _ _ ha (by omega) rfl hv rfl ?_ rfl
    simp only [absVal]
    rw [mapM_itemNum]
    dsimp only
    rw [absData_ok order ho _ _ (fun _ _ => hpol) hq (by simp), hab _ hq]
    rfl

example (io : FileIO Pay Unit) (ext : Val Pay → Act (Val Pay)) :=
  (C148_bool io ext (fun k => (List.range k).reverse) (fun k => (List.range k).reverse_perm)
    ⟨⟨[(['b'], .cont .vector (.num .bool) ([1, 0].map fun q => .atom (.num .bool) (.num q)))]⟩, ()⟩
    ["unseq".toList, "$b".toList, "$c".toList] ['b'] ['c'] [] (by decide +kernel) (by decide +kernel)).2 [1, 0]
    (by simp) rfl

theorem transformU_ub {P : Type} (io : FileIO P F) (minArgs : Nat) (check : Ty → Bool)
    (setup : List Str → Str → Option (Val P → Act (Val P))) (wd : World P F) (args : List Str)
    (v o : Str) (more : List Str) (u : Val P) (core : Val P → Act (Val P))
    (ha : argsFilter args = ('$' :: v) :: o :: more) (hm : minArgs ≤ more.length + 2)
    (hs : setup (argsFilter args) (extractPolicy args) = some core)
    (hv : wd.ws.retrieveAny v = some u) (ht : check u.ty = true) (hc : core u = .ub) :
    transformU io minArgs check setup wd args = .ub := by
  unfold transformU
  rw [ha] at hs ⊢
  simp only [List.length_cons]
  rw [if_neg (by omega)]
  simp only [hs, loadVar io check wd v u hv ht, hc]

/-- Under `par` or `par_unseq`, `abs` of an image or vector of at least two truth values is undefined
behaviour: the threads write to bits of the same memory location. -/
theorem C148_bool_race_violation (io : FileIO Pay F) (ext : Val Pay → Act (Val Pay)) (order : Nat → List Nat)
    (wd : World Pay F) (args : List Str) (v o : Str) (more : List Str)
    (ha : plainWords args = ('$' :: v) :: o :: more)
    (hp : firstPolicy args = some "par".toList ∨ firstPolicy args = some "par_unseq".toList) :
    (∀ im : Image ℚ, 2 ≤ im.data.length → wd.ws.retrieveAny v = some (numImage .bool im) →
      absCmd io ext order wd args = .ub) ∧
    (∀ l : List ℚ, 2 ≤ l.length →
      wd.ws.retrieveAny v = some (.cont .vector (.num .bool) (l.map fun q => .atom (.num .bool) (.num q))) →
      absCmd io ext order wd args = .ub) := by
  have key : ∀ l : List ℚ, 2 ≤ l.length → absData order (extractPolicy args) true .bool l = .ub := by
    intro l hl
    rw [extractPolicy_first]
    unfold absData dispatchPolicy
    rcases hp with h | h
    · rw [h, if_pos (by decide +kernel)]
      simp [packedRace, hl]
    · rw [h, if_neg (by decide +kernel), if_pos (by decide +kernel)]
      simp [packedRace, hl]
  rw [← argsFilter_eq] at ha
  refine ⟨fun im hl hv => ?_, fun l hl hv => ?_⟩
  · refine transformU_ub io 2 isMasterData _ wd args v o more _ _ ha (by omega) rfl hv rfl ?_
    simp only [numImage, absVal, absImage]
    rw [key _ hl]
    rfl
  · refine transformU_ub io 2 isMasterData _ wd args v o more _ _ ha (by omega) rfl hv rfl ?_
    simp only [absVal]
    rw [mapM_itemNum]
    dsimp only
    rw [decide_true, key _ hl]

theorem absEach_ub {l : List ℚ} (hm : -2 ^ 31 ∈ l) : absEach .int l = .ub := by
  induction l with
  | nil => simp at hm
  | cons q l ih =>
    rw [absEach]
    by_cases h : q = -2 ^ 31
    · subst h
      rw [absNum, if_pos rfl]
      rfl
    · have : -2 ^ 31 ∈ l := by
        rcases List.mem_cons.1 hm with e | e
        · exact absurd e.symm h
        · exact e
      rw [absNum, if_neg h, Res.ok_bind, ih this]
      rfl

theorem absOrder_ub {l : List ℚ} (order : List Nat) (ho : order.Perm (List.range l.length))
    (hm : -2 ^ 31 ∈ l) : absOrder .int order l = .ub := by
  obtain ⟨i, hi, e⟩ := List.getElem_of_mem hm
  have him : i ∈ order := ho.symm.subset (by simpa using hi)
  have hin : ∀ j ∈ order, j < l.length := fun j hj => by simpa using ho.subset hj
  rw [absOrder]
  clear ho
  have gen : ∀ (order : List Nat), (∀ j ∈ order, j < l.length) → i ∈ order → ∀ d : List ℚ, d.length = l.length →
      loop (fun out i => do
        let q ← vget l i
        let a ← absNum .int q
        vset out i a) order d = .ub := by
    intro order
    induction order with
    | nil => intro _ h; simp at h
    | cons j js ih =>
      intro hin him d hd
      rw [loop]
      have hj : j < l.length := hin j (by simp)
      by_cases hq : l[j] = -2 ^ 31
      · simp [vget, List.getElem?_eq_getElem hj, absNum, hq]
      · have hij : i ∈ js := by
          rcases List.mem_cons.1 him with h | h
          · subst h; exact absurd e hq
          · exact h
        have := ih (fun j hj => hin j (by simp [hj])) hij (d.set j (if l[j] < 0 then -l[j] else l[j])) (by simpa using hd)
        simp only [vget, List.getElem?_eq_getElem hj, absNum, hq, if_false, Res.ok_bind, vset, hd, hj, if_true]
        exact this
  exact gen order hin him _ (by simp)

/-- The absolute value of the smallest `int` is undefined behaviour, whatever the policy: in an image and in a
container. -/
theorem C148_overflow_violation (io : FileIO Pay F) (ext : Val Pay → Act (Val Pay)) (order : Nat → List Nat)
    (ho : ∀ k, (order k).Perm (List.range k)) (wd : World Pay F) (args : List Str) (v o : Str) (more : List Str)
    (ha : plainWords args = ('$' :: v) :: o :: more) (x : Val Pay) (l : List ℚ) (hx : Holds x .int l)
    (hm : -2 ^ 31 ∈ l) (hv : wd.ws.retrieveAny v = some x) : absCmd io ext order wd args = .ub := by
  have key : ∀ packed policy, absData order policy packed .int l = .ub := by
    intro packed policy
    have h1 := absOrder_ub (order l.length) (ho _) hm
    have h2 := absEach_ub hm
    have h3 : ∀ p, packedRace packed .int p l.length = false := by
      intro p; unfold packedRace; simp
    unfold absData dispatchPolicy
    simp only [h1, h2, h3, Bool.false_eq_true, if_false, ite_self]
  rw [← argsFilter_eq] at ha
  cases hx with
  | image _ im =>
    refine transformU_ub io 2 isMasterData _ wd args v o more _ _ ha (by omega) rfl hv rfl ?_
    simp only [absVal, absImage]
    rw [key]
    rfl
  | cont k _ _ =>
    refine transformU_ub io 2 isMasterData _ wd args v o more _ _ ha (by omega) rfl hv rfl ?_
    simp only [absVal]
    rw [mapM_itemNum]
    dsimp only
    rw [key]

/-- With fewer than two arguments, with an unknown variable, and with a variable that holds neither an image
nor a container of numbers, the command does nothing; an image without pixels is refused. -/
theorem C148_rejected (io : FileIO Pay F) (ext : Val Pay → Act (Val Pay)) (order : Nat → List Nat)
    (ho : ∀ k, (order k).Perm (List.range k)) (wd : World Pay F) (args : List Str) :
    ((plainWords args).length < 2 → Nothing wd (absCmd io ext order wd args)) ∧
    (∀ v o more, plainWords args = ('$' :: v) :: o :: more →
      (∀ u, wd.ws.retrieveAny v = some u → (∃ n, u.ty = .num n) ∨ ∃ n, u.ty = .scalar n) →
      Nothing wd (absCmd io ext order wd args)) ∧
    (∀ n more, Refuses (absCmd io ext order) more (numImage n ⟨[], []⟩)) := by
  refine ⟨fun h => ?_, fun v o more ha hu => ?_, fun n more => ?_⟩
  · rw [← argsFilter_eq] at h
    unfold Nothing absCmd transformU
    simp only
    rw [if_pos h]
    rfl
  · rw [← argsFilter_eq] at ha
    unfold Nothing absCmd transformU
    simp only [ha, List.length_cons]
    rw [if_neg (by omega), loadVar_none io isMasterData wd v]
    · rfl
    · intro u hv
      rcases hu u hv with ⟨n, e⟩ | ⟨n, e⟩ <;> rw [e] <;> rfl
  · apply refuses_of (by omega) _ rfl
    intro a b policy
    refine ⟨_, rfl, ?_⟩
    have : absData order policy true n [] = .ok [] := by
      unfold absData dispatchPolicy packedRace
      have : order 0 = [] := by simpa using ho 0
      simp [absOrder, this, loop, absEach]
    simp only [numImage, absVal, absImage, this, Res.ok_bind, Image.ofData]
    rfl

example (io : FileIO Pay F) (ext : Val Pay → Act (Val Pay)) :
    Gives (absCmd io ext List.range) [] (numImage .int ⟨[2, 1], [-3, 4]⟩) (numImage .int ⟨[2, 1], [3, 4]⟩) := by
  have := C148_images_partial io ext List.range (fun _ => List.Perm.refl _) [] .int (by simp) ⟨[2, 1], [-3, 4]⟩
    ⟨rfl, by norm_num, by decide⟩ (by decide)
    (by
      intro q hq
      simp only [List.mem_cons, List.not_mem_nil, or_false] at hq
      rcases hq with rfl | rfl
      · exact ⟨-3, by norm_num⟩
      · exact ⟨4, by norm_num⟩)
    (by intro _; norm_num)
  simpa using this

example (io : FileIO Pay F) (ext : Val Pay → Act (Val Pay)) (fs : F) :
    absCmd io ext List.range
      ⟨⟨[("b".toList, .cont .vector (.num .bool) ([1, 0].map fun q => .atom (.num .bool) (.num q)))]⟩, fs⟩
      ["par".toList, "$b".toList, "$c".toList] = .ub :=
  (C148_bool_race_violation io ext List.range _ _ "b".toList "$c".toList [] (by decide +kernel)
    (.inl (by decide +kernel))).2 [1, 0] (by decide) rfl

end TinyDIP.Props
