import Verif.Lemmas.CliData
import Verif.Props.Arith

/-!
# Property C115: the commands max, min and sum
-/

namespace TinyDIP.Props

open TinyDIP.Cli

variable {F P : Type}

/-- Whatever the operation, a scalar command changes no file and at most the variable named by its second
argument (policy words not counted); a second argument without `$` changes nothing. -/
theorem C115_frame (io : FileIO Pay F) (m : Nat) (core : Str → Val Pay → Res (Val Pay))
    (w : World Pay F) (args : List Str) (o : Out Pay F) (h : metaScalar io m core w args = .ok o) :
    o.world = w ∨
      ∃ d r, (plainWords args)[1]? = some ('$' :: d) ∧ o.world.ws.retrieveAny d = some r ∧
        OnlyVar w o.world d ∧ o.ctl = .returned := by
  simp only [← argsFilter_eq] at *
  unfold metaScalar at h
  simp only [quiet, raise] at h
  split at h
  · injection h with h; subst h; exact Or.inl rfl
  · split at h
    · cases h
    · rename_i inArg rest hf
      split at h
      · injection h with h; subst h; exact Or.inl rfl
      · injection h with h; subst h; exact Or.inl rfl
      · split at h
        · cases h
        · injection h with h; subst h; exact Or.inl rfl
        · rename_i r _
          unfold deliver at h
          simp only [quiet] at h
          split at h
          · split at h
            · injection h with h; subst h; exact Or.inl rfl
            · rename_i hne
              split at h
              · rename_i hv
                injection h with h
                cases rest with
                | nil => exact absurd rfl hne
                | cons out more =>
                  simp only [List.headD_cons] at hv h
                  cases out with
                  | nil => simp [isVar] at hv
                  | cons c d =>
                    have hc : c = '$' := by simpa [isVar] using hv
                    subst hc
                    subst h
                    refine Or.inr ⟨d, r, by rw [hf]; rfl, ?_, ?_, rfl⟩
                    · simp [varName, Workspace.retrieveAny_put]
                    · refine ⟨rfl, fun m hm => ?_⟩
                      rw [sameVar_iff] at hm
                      simp [varName, Workspace.retrieveAny_put, hm]
              · injection h with h; subst h; exact Or.inl rfl
          · injection h with h; subst h; exact Or.inl rfl

theorem metaScalar_step (io : FileIO Pay F) (core : Str → Val Pay → Res (Val Pay)) (w : World Pay F)
    (args : List Str) (s : Str) (rest : List Str) (ha : argsFilter args = ('$' :: s) :: rest)
    (v : Val Pay) (hs : w.ws.retrieveAny s = some v) (hm : isMasterData v.ty = true) :
    metaScalar io 1 core w args =
      match core (lastPolicy args) v with
      | .ub => .ub
      | .throw _ => .ok ⟨w, .threw, none⟩
      | .ok r => deliver w (rest.headD []) r := by
  unfold metaScalar
  simp only [ha, List.length_cons]
  rw [if_neg (by omega), loadVar io isMasterData w s v hs hm]
  dsimp only [raise]
  cases core (lastPolicy args) v <;> rfl

/-- A variable that does not exist, or holds no image and no container of numbers, changes nothing; so
does a missing argument. -/
theorem C115_missing (io : FileIO Pay F) (core : Str → Val Pay → Res (Val Pay)) (w : World Pay F)
    (args : List Str) :
    (plainWords args = [] → Nothing w (metaScalar io 1 core w args)) ∧
      ∀ s rest, plainWords args = ('$' :: s) :: rest →
        (∀ v, w.ws.retrieveAny s = some v → ¬ DataTy v.ty) →
        Nothing w (metaScalar io 1 core w args) := by
  simp only [← argsFilter_eq] at *
  constructor
  · intro h
    simp [Nothing, metaScalar, h, quiet]
  · intro s rest h hv
    unfold Nothing metaScalar
    simp only [h, List.length_cons]
    rw [if_neg (by omega), loadVar_none io isMasterData w s fun v h => not_dataTy (hv v h)]
    rfl

example : plainWords ["par".toList, "$a".toList] = [['$', 'a']] ∧
    plainWords ["seq".toList] = [] := by decide +kernel

theorem deliver_num (w : World Pay F) (d : Str) (n : Num) (q : ℚ) :
    Stored w (deliver w ('$' :: d) (numVal n q)) d (.atom (.num n) (.num q)) :=
  stored_put w d _ _ (by simp [deliver, isMasterScalar, numVal, Val.ty, isVar, varName])

/-- `max $s $d` stores the largest element of the image or container, with the element type; `max $s`
prints it. Policy words make no difference.
Full statement: also without elements; see `C115_empty_violation`. -/
theorem C115_max_partial (io : FileIO Pay F) (ext : Val Pay → Res (Val Pay)) (w : World Pay F)
    (args : List Str) (s : Str) (rest : List Str) (ha : plainWords args = ('$' :: s) :: rest)
    (v : Val Pay) (n : Num) (l : List ℚ) (hs : w.ws.retrieveAny s = some v) (hv : Holds v n l)
    (hne : l ≠ []) :
    ∃ q, q ∈ l ∧ (∀ x ∈ l, x ≤ q) ∧
      (∀ d more, rest = ('$' :: d) :: more →
        Stored w (maxCmd io ext w args) d (.atom (.num n) (.num q))) ∧
      (rest = [] → maxCmd io ext w args = .ok ⟨w, .returned, some (.atom (.num n) (.num q))⟩) := by
  simp only [← argsFilter_eq] at *
  cases l with
  | nil => exact absurd rfl hne
  | cons a l =>
    obtain ⟨q, e, h1, h2⟩ := stdMax_ok a l
    have hc : maxCmd io ext w args = deliver w (rest.headD []) (numVal n q) := by
      rw [maxCmd, metaScalar_step io _ w args s rest ha v hs (isMasterData_holds hv)]
      simp only [extremeCore, numData_holds hv, e, Res.ok_bind]
    refine ⟨q, h1, h2, ?_, ?_⟩
    · rintro d more rfl
      rw [hc]
      exact deliver_num w d n q
    · rintro rfl
      rw [hc]
      rfl

/-- `min $s $d` stores the smallest element; `min $s` prints it. Missing: data without elements, see
`C115_empty_violation`. -/
theorem C115_min_partial (io : FileIO Pay F) (ext : Val Pay → Res (Val Pay)) (w : World Pay F)
    (args : List Str) (s : Str) (rest : List Str) (ha : plainWords args = ('$' :: s) :: rest)
    (v : Val Pay) (n : Num) (l : List ℚ) (hs : w.ws.retrieveAny s = some v) (hv : Holds v n l)
    (hne : l ≠ []) :
    ∃ q, q ∈ l ∧ (∀ x ∈ l, q ≤ x) ∧
      (∀ d more, rest = ('$' :: d) :: more →
        Stored w (minCmd io ext w args) d (.atom (.num n) (.num q))) ∧
      (rest = [] → minCmd io ext w args = .ok ⟨w, .returned, some (.atom (.num n) (.num q))⟩) := by
  simp only [← argsFilter_eq] at *
  cases l with
  | nil => exact absurd rfl hne
  | cons a l =>
    obtain ⟨q, e, h1, h2⟩ := stdMin_ok a l
    have hc : minCmd io ext w args = deliver w (rest.headD []) (numVal n q) := by
      rw [minCmd, metaScalar_step io _ w args s rest ha v hs (isMasterData_holds hv)]
      simp only [extremeCore, numData_holds hv, e, Res.ok_bind]
    refine ⟨q, h1, h2, ?_, ?_⟩
    · rintro d more rfl
      rw [hc]
      exact deliver_num w d n q
    · rintro rfl
      rw [hc]
      rfl

/-- A session with an 8-bit image, a vector of integers and an image without pixels. -/
def wData : World Pay Unit :=
  ⟨⟨[(['a'], .atom (.image (.num .uchar)) (.image ⟨[2, 1], [200, 100]⟩)),
    (['v'], .cont .vector (.num .int) [.atom (.num .int) (.num 5), .atom (.num .int) (.num (-3))]),
    (['z'], .atom (.image (.num .double)) (.image ⟨[0, 4], []⟩))]⟩, ()⟩

example : plainWords ["max".toList, "par".toList].tail = [] ∧
    plainWords ["par".toList, "$a".toList, "$m".toList] = [['$', 'a'], ['$', 'm']] ∧
    wData.ws.retrieveAny ['a'] =
      some (.atom (.image (.num .uchar)) (.image ⟨[2, 1], [200, 100]⟩)) ∧
    Holds (.atom (.image (.num .uchar)) (.image ⟨[2, 1], [200, 100]⟩)) .uchar [200, 100] :=
  ⟨by decide +kernel, by decide +kernel, rfl, .image .uchar ⟨[2, 1], [200, 100]⟩⟩

example : ∃ v, wData.ws.retrieveAny ['v'] = some v ∧ Holds v .int [5, -3] :=
  ⟨_, rfl, .cont .vector .int [5, -3]⟩

/-- Violation: for an image or container without elements the commands `max` and `min` are undefined
behaviour, for example after `zeros $z 0 4`. -/
theorem C115_empty_violation (io : FileIO Pay F) (ext : Val Pay → Res (Val Pay)) (w : World Pay F)
    (args : List Str) (s : Str) (rest : List Str) (ha : plainWords args = ('$' :: s) :: rest)
    (v : Val Pay) (n : Num) (hs : w.ws.retrieveAny s = some v) (hv : Holds v n []) :
    maxCmd io ext w args = .ub ∧ minCmd io ext w args = .ub := by
  simp only [← argsFilter_eq] at *
  constructor
  · rw [maxCmd, metaScalar_step io _ w args s rest ha v hs (isMasterData_holds hv)]
    simp only [extremeCore, numData_holds hv, TinyDIP.stdMax, Res.ub_bind]
  · rw [minCmd, metaScalar_step io _ w args s rest ha v hs (isMasterData_holds hv)]
    simp only [extremeCore, numData_holds hv, TinyDIP.stdMin, Res.ub_bind]

example : ∃ v, wData.ws.retrieveAny ['z'] = some v ∧ Holds v .double [] :=
  ⟨_, rfl, .image .double ⟨[0, 4], []⟩⟩

/-- The size of the image in the previous example is what `zeros $z 0 4` creates. -/
example : Image.ofSizes (0 : ℚ) [0, 4] = ⟨[0, 4], []⟩ := rfl

/-- `max $s $d` and `min $s $d` of an `RGB`, `HSV` or `RGB_DOUBLE` image store a vector with the extreme
value of each channel. -/
theorem C115_channels (io : FileIO Pay F) (ext : Val Pay → Res (Val Pay)) (w : World Pay F)
    (args : List Str) (s d : Str) (more : List Str)
    (ha : plainWords args = ('$' :: s) :: ('$' :: d) :: more) (k : Nat) (n : Num)
    (hk : (k = 10 ∧ n = .uchar) ∨ ((k = 11 ∨ k = 12) ∧ n = .double)) (im : Image (Px3 ℚ)) (wf : im.WF)
    (h0 : 0 < im.size.prod) (hs : w.ws.retrieveAny s = some (.atom (.image (.scalar k)) (.image3 im))) :
    (∃ a b c, (a ∈ im.data.map Px3.c0 ∧ ∀ p ∈ im.data, p.c0 ≤ a) ∧
      (b ∈ im.data.map Px3.c1 ∧ ∀ p ∈ im.data, p.c1 ≤ b) ∧
      (c ∈ im.data.map Px3.c2 ∧ ∀ p ∈ im.data, p.c2 ≤ c) ∧
      Stored w (maxCmd io ext w args) d (.cont .vector (.num n)
        [.atom (.num n) (.num a), .atom (.num n) (.num b), .atom (.num n) (.num c)])) ∧
    ∃ a b c, (a ∈ im.data.map Px3.c0 ∧ ∀ p ∈ im.data, a ≤ p.c0) ∧
      (b ∈ im.data.map Px3.c1 ∧ ∀ p ∈ im.data, b ≤ p.c1) ∧
      (c ∈ im.data.map Px3.c2 ∧ ∀ p ∈ im.data, c ≤ p.c2) ∧
      Stored w (minCmd io ext w args) d (.cont .vector (.num n)
        [.atom (.num n) (.num a), .atom (.num n) (.num b), .atom (.num n) (.num c)]) := by
  simp only [← argsFilter_eq] at *
  have hp3 : px3Data (.atom (.image (.scalar k)) (.image3 im)) = some (k, n, im) := by
    rcases hk with ⟨rfl, rfl⟩ | ⟨rfl | rfl, rfl⟩ <;> rfl
  have hnd : numData (.atom (.image (.scalar k)) (.image3 im)) = none := rfl
  have hlen : im.data.length = im.size.prod := wf.len
  have hplane : ∀ (j : Nat) (ch : Px3 ℚ → ℚ), (∀ p : Px3 ℚ, p.channel j = .ok (ch p)) →
      getPlane 0 im j = .ok ⟨im.size, im.data.map ch⟩ := by
    intro j ch hch
    rw [getPlane]
    exact getPlaneOrd_ok 0 im wf h0 j ch hch _ (by rw [wf.count, hlen])
  have hne : im.data ≠ [] := by
    intro h; rw [h] at hlen; simp at hlen; omega
  have ex : ∀ ch : Px3 ℚ → ℚ, (∃ q, TinyDIP.stdMax (im.data.map ch) = .ok q ∧ q ∈ im.data.map ch ∧
      ∀ p ∈ im.data, ch p ≤ q) ∧ ∃ q, TinyDIP.stdMin (im.data.map ch) = .ok q ∧ q ∈ im.data.map ch ∧
      ∀ p ∈ im.data, q ≤ ch p := by
    intro ch
    cases hd : im.data with
    | nil => exact absurd hd hne
    | cons p ps =>
      obtain ⟨q, e, h1, h2⟩ := stdMax_ok (ch p) (ps.map ch)
      obtain ⟨q', e', h1', h2'⟩ := stdMin_ok (ch p) (ps.map ch)
      exact ⟨⟨q, by simpa using e, by simpa using h1, fun x hx => h2 _ (by
          rw [← List.map_cons]; exact List.mem_map_of_mem hx)⟩,
        q', by simpa using e', by simpa using h1', fun x hx => h2' _ (by
          rw [← List.map_cons]; exact List.mem_map_of_mem hx)⟩
  have fin : ∀ (pick : List ℚ → Res ℚ) (a b c : ℚ), pick (im.data.map Px3.c0) = .ok a →
      pick (im.data.map Px3.c1) = .ok b → pick (im.data.map Px3.c2) = .ok c →
      Stored w (metaScalar io 1 (fun _ v => extremeCore ext pick v) w args) d (.cont .vector (.num n)
        [.atom (.num n) (.num a), .atom (.num n) (.num b), .atom (.num n) (.num c)]) := by
    intro pick a b c ea eb ec
    rw [metaScalar_step io _ w args s _ ha _ hs rfl]
    have := TinyDIP.Props.C111_single 0 (fun p : Image ℚ => pick p.data) im a b c
      (by rw [hplane 0 Px3.c0 (fun _ => rfl)]; exact ea)
      (by rw [hplane 1 Px3.c1 (fun _ => rfl)]; exact eb)
      (by rw [hplane 2 Px3.c2 (fun _ => rfl)]; exact ec)
    simp only [extremeCore, hnd, hp3, this, Res.ok_bind]
    exact stored_put w d _ _ (by simp [deliver, isMasterScalar, numVal, Val.ty, isVar, varName])
  obtain ⟨⟨a, ea, ma, ba⟩, a', ea', ma', ba'⟩ := ex Px3.c0
  obtain ⟨⟨b, eb, mb, bb⟩, b', eb', mb', bb'⟩ := ex Px3.c1
  obtain ⟨⟨c, ec, mc, bc⟩, c', ec', mc', bc'⟩ := ex Px3.c2
  exact ⟨⟨a, b, c, ⟨ma, ba⟩, ⟨mb, bb⟩, ⟨mc, bc⟩, fin _ a b c ea eb ec⟩,
    a', b', c', ⟨ma', ba'⟩, ⟨mb', bb'⟩, ⟨mc', bc'⟩, fin _ a' b' c' ea' eb' ec'⟩

example : (⟨[2, 1], [⟨1, 2, 3⟩, ⟨9, 1, 7⟩]⟩ : Image (Px3 ℚ)).WF ∧ 0 < [2, 1].prod :=
  ⟨⟨by decide, by decide, by decide⟩, by decide⟩

/-! ### sum -/

/-- `sum $s $d` stores the exact sum, whatever the order and grouping in which the library adds, provided
the sum of every selection of elements is a value of the element type (for unsigned numbers: provided the
total is).
Full statement: without the proviso; see `C115_sum_violation`. -/
theorem C115_sum_partial (io : FileIO Pay F) (ext : Val Pay → Res (Val Pay)) (group : Str → Grouping)
    (hg : ∀ p, Arranges (group p)) (w : World Pay F) (args : List Str) (s d : Str) (more : List Str)
    (ha : plainWords args = ('$' :: s) :: ('$' :: d) :: more) (v : Val Pay) (n : Num) (l : List ℚ)
    (hs : w.ws.retrieveAny s = some v) (hv : Holds v n l) (hn : n ≠ .bool)
    (hfit : ∀ sel : List ℚ, sel.Subperm l → Fits n sel.sum) :
    Stored w (sumCmd io ext group w args) d (.atom (.num n) (.num l.sum)) := by
  simp only [← argsFilter_eq] at *
  rw [sumCmd, metaScalar_step io _ w args s _ ha v hs (isMasterData_holds hv)]
  have hp := hg (lastPolicy args) ℚ 0 l
  have := eval_exact hn (group (lastPolicy args) ℚ 0 l) (by
    intro sel hsel
    have h1 : sel.Subperm (0 :: l) := hsel.trans hp.subperm
    by_cases h0 : (0 : ℚ) ∈ sel
    · have h2 := h1.erase 0
      rw [List.erase_cons_head] at h2
      have := hfit _ h2
      have e := (List.perm_cons_erase h0).sum_eq
      rw [List.sum_cons, zero_add] at e
      rwa [e]
    · apply hfit
      have h2 := h1.erase 0
      rwa [List.erase_cons_head, List.erase_of_not_mem h0] at h2)
  rw [hp.sum_eq, List.sum_cons, zero_add] at this
  simp only [sumCore, numData_holds hv, this, Res.ok_bind]
  exact deliver_num w d n l.sum

/-- For unsigned elements the stored value is the sum modulo 2^8 or 2^64, whatever the order and
grouping. -/
theorem C115_sum_unsigned (io : FileIO Pay F) (ext : Val Pay → Res (Val Pay)) (group : Str → Grouping)
    (hg : ∀ p, Arranges (group p)) (w : World Pay F) (args : List Str) (s d : Str) (more : List Str)
    (ha : plainWords args = ('$' :: s) :: ('$' :: d) :: more) (v : Val Pay) (n : Num) (b : Nat)
    (hn : (n = .uchar ∧ b = 8) ∨ (n = .sizeT ∧ b = 64)) (l : List ℕ)
    (hs : w.ws.retrieveAny s = some v) (hv : Holds v n (l.map fun k : ℕ => (k : ℚ)))
    (hl : ∀ k ∈ l, k < 2 ^ b) :
    Stored w (sumCmd io ext group w args) d (.atom (.num n) (.num (l.sum % 2 ^ b : ℕ))) := by
  simp only [← argsFilter_eq] at *
  rw [sumCmd, metaScalar_step io _ w args s _ ha v hs (isMasterData_holds hv)]
  have hp := hg (lastPolicy args) ℚ 0 (l.map fun k : ℕ => (k : ℚ))
  have hp' : (group (lastPolicy args) ℚ 0 (l.map fun k : ℕ => (k : ℚ))).leaves.Perm
      ((0 :: l).map fun k : ℕ => (k : ℚ)) := by simpa using hp
  have hx : ∃ ks : List ℕ, ks.Perm (0 :: l) ∧
      (group (lastPolicy args) ℚ 0 (l.map fun k : ℕ => (k : ℚ))).leaves = ks.map fun k : ℕ => (k : ℚ) := by
    refine ⟨_, (hp'.map Nat.floor).trans (by rw [List.map_map]; simp [Function.comp_def]), ?_⟩
    rw [List.map_map]
    conv_lhs => rw [← List.map_id (group (lastPolicy args) ℚ 0 (l.map fun k : ℕ => (k : ℚ))).leaves]
    refine List.map_congr_left fun q hq => ?_
    obtain ⟨k, _, rfl⟩ := List.mem_map.mp (hp'.mem_iff.mp hq)
    simp
  obtain ⟨ks, h1, h2⟩ := hx
  have hwrap : ∀ q, n.wrap q = .ok ((⌊q⌋ % ((2 ^ b : ℕ) : ℤ) : ℤ) : ℚ) := by
    intro q
    rcases hn with ⟨rfl, rfl⟩ | ⟨rfl, rfl⟩ <;> simp [Num.wrap]
  have := eval_mod hwrap _ ks (fun k hk => by
    have := h1.mem_iff.mp hk
    rcases List.mem_cons.mp this with rfl | h
    · positivity
    · exact hl k h) h2
  rw [h1.sum_eq, List.sum_cons, zero_add] at this
  simp only [sumCore, numData_holds hv, this, Res.ok_bind]
  exact deliver_num w d n _

/-- For `int` elements, when the total is not an `int` the command is undefined behaviour in every order
and grouping. -/
theorem C115_sum_overflow_violation (io : FileIO Pay F) (ext : Val Pay → Res (Val Pay))
    (group : Str → Grouping) (hg : ∀ p, Arranges (group p)) (w : World Pay F) (args : List Str) (s : Str)
    (rest : List Str) (ha : plainWords args = ('$' :: s) :: rest) (v : Val Pay) (l : List ℚ)
    (hs : w.ws.retrieveAny s = some v) (hv : Holds v .int l) (hl : ∀ q ∈ l, Fits .int q)
    (hover : l.sum < -2 ^ 31 ∨ 2 ^ 31 ≤ l.sum) : sumCmd io ext group w args = .ub := by
  simp only [← argsFilter_eq] at *
  rw [sumCmd, metaScalar_step io _ w args s _ ha v hs (isMasterData_holds hv)]
  have hp := hg (lastPolicy args) ℚ 0 l
  have hsum : (group (lastPolicy args) ℚ 0 l).leaves.sum = l.sum := by
    rw [hp.sum_eq, List.sum_cons, zero_add]
  rcases eval_int (group (lastPolicy args) ℚ 0 l) (fun q hq => by
      rcases List.mem_cons.mp (hp.mem_iff.mp hq) with rfl | h
      · exact ⟨0, by norm_num, by norm_num, by norm_num⟩
      · exact hl q h) with e | ⟨_, h1, h2⟩
  · simp only [sumCore, numData_holds hv, e, Res.ub_bind]
  · rw [hsum] at h1 h2
    rcases hover with h | h <;> linarith

example : (∀ q ∈ [(2147483647 : ℚ), 1], Fits .int q) ∧ (2 : ℚ) ^ 31 ≤ [(2147483647 : ℚ), 1].sum := by
  constructor
  · intro q hq
    simp only [List.mem_cons, List.not_mem_nil, or_false] at hq
    rcases hq with rfl | rfl
    · exact ⟨2147483647, by norm_num, by norm_num, by norm_num⟩
    · exact ⟨1, by norm_num, by norm_num, by norm_num⟩
  · norm_num

/-- Violation: the stored value need not be the sum. For the 8-bit image of `wData` with the pixels 200
and 100, whatever the order and grouping, `sum $a $d` stores 44. -/
theorem C115_sum_violation (io : FileIO Pay Unit) (ext : Val Pay → Res (Val Pay)) (group : Str → Grouping)
    (hg : ∀ p, Arranges (group p)) :
    Stored wData (sumCmd io ext group wData ["$a".toList, "$d".toList]) "d".toList
      (.atom (.num .uchar) (.num 44)) := by
  have := C115_sum_unsigned io ext group hg wData ["$a".toList, "$d".toList] "a".toList "d".toList []
    (by decide +kernel) _ .uchar 8 (Or.inl ⟨rfl, rfl⟩) [200, 100] rfl
    (.image .uchar ⟨[2, 1], [200, 100]⟩) (by decide)
  simpa using this

/-- A boolean image or container: the stored value tells whether any element is true; it is not the number
of true elements. -/
theorem C115_sum_bool_violation (io : FileIO Pay F) (ext : Val Pay → Res (Val Pay))
    (group : Str → Grouping) (hg : ∀ p, Arranges (group p)) (w : World Pay F) (args : List Str)
    (s d : Str) (more : List Str) (ha : plainWords args = ('$' :: s) :: ('$' :: d) :: more) (v : Val Pay)
    (l : List ℚ) (hs : w.ws.retrieveAny s = some v) (hv : Holds v .bool l) (hl : ∀ q ∈ l, Fits .bool q) :
    Stored w (sumCmd io ext group w args) d (.atom (.num .bool) (.num (if (1 : ℚ) ∈ l then 1 else 0))) := by
  simp only [← argsFilter_eq] at *
  rw [sumCmd, metaScalar_step io _ w args s _ ha v hs (isMasterData_holds hv)]
  have hp := hg (lastPolicy args) ℚ 0 l
  have key : ∀ t : RedTree ℚ, (∀ q ∈ t.leaves, Fits .bool q) →
      t.eval Num.bool.plus = .ok (if (1 : ℚ) ∈ t.leaves then 1 else 0) := by
    intro t
    induction t with
    | leaf a =>
      intro h
      rcases h a (by simp [RedTree.leaves]) with rfl | rfl <;> simp [RedTree.eval, RedTree.leaves]
    | node x y ihx ihy =>
      intro h
      rw [RedTree.eval, ihx fun q hq => h q (by simp [RedTree.leaves, hq]),
        ihy fun q hq => h q (by simp [RedTree.leaves, hq])]
      simp only [Res.ok_bind, RedTree.leaves, List.mem_append, Num.plus, Num.wrap]
      by_cases h1 : (1 : ℚ) ∈ x.leaves <;> by_cases h2 : (1 : ℚ) ∈ y.leaves <;>
        norm_num [h1, h2]
  have hk := key (group (lastPolicy args) ℚ 0 l) fun q hq => by
    rcases List.mem_cons.mp (hp.mem_iff.mp hq) with rfl | h
    · exact Or.inl rfl
    · exact hl q h
  have hm : ((1 : ℚ) ∈ (group (lastPolicy args) ℚ 0 l).leaves) ↔ (1 : ℚ) ∈ l := by
    rw [hp.mem_iff]; simp
  simp only [hm] at hk
  simp only [sumCore, numData_holds hv, hk, Res.ok_bind]
  exact deliver_num w d .bool _

/-- `sum $s $d` of a three-channel image stores the exact channel sums as `RGB_DOUBLE` (as `HSV` for `HSV`
images), whatever the order and grouping. -/
theorem C115_sum_channels (io : FileIO Pay F) (ext : Val Pay → Res (Val Pay)) (group : Str → Grouping)
    (hg : ∀ p, Arranges (group p)) (w : World Pay F) (args : List Str) (s d : Str) (more : List Str)
    (ha : plainWords args = ('$' :: s) :: ('$' :: d) :: more) (k j : Nat)
    (hk : (k = 10 ∧ j = 12) ∨ (k = 11 ∧ j = 11) ∨ (k = 12 ∧ j = 12)) (im : Image (Px3 ℚ))
    (hs : w.ws.retrieveAny s = some (.atom (.image (.scalar k)) (.image3 im))) :
    Stored w (sumCmd io ext group w args) d (.atom (.scalar j) (.px ⟨(im.data.map Px3.c0).sum,
      (im.data.map Px3.c1).sum, (im.data.map Px3.c2).sum⟩)) := by
  simp only [← argsFilter_eq] at *
  rw [sumCmd, metaScalar_step io _ w args s _ ha _ hs rfl]
  have hp := hg (lastPolicy args) (Px3 ℚ) ⟨0, 0, 0⟩ im.data
  have e := eval_px3 (group (lastPolicy args) (Px3 ℚ) ⟨0, 0, 0⟩ im.data)
  rw [(hp.map Px3.c0).sum_eq, (hp.map Px3.c1).sum_eq, (hp.map Px3.c2).sum_eq] at e
  simp only [List.map_cons, List.sum_cons, zero_add] at e
  have hp3 : ∃ n, px3Data (.atom (.image (.scalar k)) (.image3 im)) = some (k, n, im) := by
    rcases hk with ⟨rfl, _⟩ | ⟨rfl, _⟩ | ⟨rfl, _⟩ <;> exact ⟨_, rfl⟩
  obtain ⟨n, hn⟩ := hp3
  have hnd : numData (.atom (.image (.scalar k)) (.image3 im)) = none := rfl
  have hj : (if k = 11 then 11 else rgbDouble) = j := by
    rcases hk with ⟨rfl, rfl⟩ | ⟨rfl, rfl⟩ | ⟨rfl, rfl⟩ <;> rfl
  simp only [sumCore, hnd, hn, e, Res.ok_bind, hj]
  exact stored_put w d _ _ (by simp [deliver, isMasterScalar, Val.ty, isVar, varName])

/-- A grouping that exists: from left to right. -/
def leftGroup : Grouping := fun _ a l => l.foldl (fun t x => .node t (.leaf x)) (.leaf a)

theorem leftGroup_arranges : Arranges leftGroup := by
  intro α a l
  have : ∀ (l : List α) (t : RedTree α),
      (l.foldl (fun t x => RedTree.node t (.leaf x)) t).leaves = t.leaves ++ l := by
    intro l
    induction l with
    | nil => simp
    | cons b l ih => intro t; rw [List.foldl_cons, ih]; simp [RedTree.leaves]
  rw [leftGroup, this]
  exact List.Perm.refl _

example : ∀ sel : List ℚ, sel.Subperm [5, -3] → Fits .double sel.sum := fun _ _ => trivial

example : ∀ p, Arranges ((fun _ => leftGroup : Str → Grouping) p) := fun _ => leftGroup_arranges

example (io : FileIO Pay Unit) (ext : Val Pay → Res (Val Pay)) :=
  C115_max_partial io ext wData ["par".toList, "$a".toList, "$m".toList] ['a'] [['$', 'm']] (by decide +kernel) _ .uchar
    [200, 100] rfl (.image .uchar ⟨[2, 1], [200, 100]⟩) (by simp)

example (io : FileIO Pay Unit) (ext : Val Pay → Res (Val Pay)) :=
  C115_sum_partial io ext (fun _ => leftGroup) (fun _ => leftGroup_arranges)
    ⟨⟨[(['v'], .cont .vector (.num .double) [.atom (.num .double) (.num (5 / 2)), .atom (.num .double) (.num (-3))])]⟩, ()⟩
    ["par".toList, "$v".toList, "$m".toList] ['v'] ['m'] [] (by decide +kernel) _ .double [5 / 2, -3] rfl
    (.cont .vector .double [5 / 2, -3]) (by decide) (fun _ _ => trivial)

example (io : FileIO Pay Unit) (ext : Val Pay → Res (Val Pay)) :=
  C115_sum_unsigned io ext (fun _ => leftGroup) (fun _ => leftGroup_arranges) wData ["par".toList, "$a".toList, "$m".toList]
    ['a'] ['m'] [] (by decide +kernel) _ .uchar 8 (.inl ⟨rfl, rfl⟩) [200, 100] rfl
    (.image .uchar ⟨[2, 1], [200, 100]⟩) (by decide)

end TinyDIP.Props
