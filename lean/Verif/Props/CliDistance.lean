import Verif.Model.CliDistance
import Verif.Props.CliCount
import Verif.Lemmas.Distance

/-!
# Property C119 (continued): the command manhattan_distance
-/

namespace TinyDIP.Props

open TinyDIP.Cli

variable {F : Type}

theorem gap_ok {n : Num} {a b : ℚ} (h : n = .int → Fits .int |a - b|) : n.gap a b = .ok |a - b| := by
  have e : (if a > b then a - b else b - a) = |a - b| := absDiff_eq a b
  unfold Num.gap
  simp only [e]
  split
  · rename_i hi
    exact wrap_fits (by simp) (h hi)
  · rfl

theorem manhattanNums_ok (n : Num) (x y : Image ℚ) (wx : x.WF) (wy : y.WF) (hsz : x.size = y.size)
    (h0 : 0 < x.size.prod)
    (hint : n = .int → ∀ idx a b, x.at' idx = .ok a → y.at' idx = .ok b → Fits .int |a - b|) :
    manhattanNums n x y = .ok (List.zipWith (fun a b => |a - b|) x.data y.data).sum := by
  have hlen : x.data.length = y.data.length := by rw [wx.len, wy.len, hsz]
  rw [manhattanNums, if_neg (by simpa using hsz), zipRes_eq n.gap (fun a b => |a - b|) _ _ hlen, Res.ok_bind,
    ofData_ok (by simp [wx.len, wy.len, hsz]) wx.fits h0, Res.ok_bind, foldl_add_eq, zero_add]
  intro p hp
  obtain ⟨idx, e1, e2⟩ := mem_zip_at wx wy hsz hp
  exact gap_ok fun hi => hint hi idx _ _ e1 e2

theorem manhattan_step (io : FileIO Pay F) (ext : Val Pay → Val Pay → Res (Val Pay)) (w : World Pay F)
    (args : List Str) (s t : Str) (rest : List Str)
    (ha : argsFilter args = ('$' :: s) :: ('$' :: t) :: rest) (a b : Val Pay)
    (hs : w.ws.retrieveAny s = some a) (ht : w.ws.retrieveAny t = some b)
    (hm : isMasterData a.ty = true) (hm' : isMasterData b.ty = true) :
    manhattanCmd io ext w args =
      match manhattanCore ext a b with
      | .ub => .ub
      | .throw _ => .ok ⟨w, .returned, none⟩
      | .ok r => deliver w (rest.headD []) r := by
  unfold manhattanCmd
  rw [ha]
  dsimp only
  rw [loadVar io isMasterData w s a hs hm]
  dsimp only
  rw [loadVar io isMasterData w t b ht hm']
  dsimp only [quiet]
  cases manhattanCore ext a b <;> rfl

/-- `manhattan_distance $s $t $d` of two images of numbers of one type and one size (with at least one
pixel) stores the sum of the absolute differences of the pixels as a `double`; without the third argument
the number is printed and nothing changes. Policy words make no difference.
Full statement: for all pixel values; a difference that is no `int` is undefined behaviour, see
`C119_command_violation`. -/
theorem C119_command_partial (io : FileIO Pay F) (ext : Val Pay → Val Pay → Res (Val Pay)) (w : World Pay F)
    (args : List Str) (s t : Str) (rest : List Str)
    (ha : plainWords args = ('$' :: s) :: ('$' :: t) :: rest) (n : Num) (x y : Image ℚ)
    (hs : w.ws.retrieveAny s = some (numImage n x)) (ht : w.ws.retrieveAny t = some (numImage n y))
    (wx : x.WF) (wy : y.WF) (hsz : x.size = y.size) (h0 : 0 < x.size.prod)
    (hint : n = .int → ∀ idx a b, x.at' idx = .ok a → y.at' idx = .ok b → Fits .int |a - b|) :
    (∀ d more, rest = ('$' :: d) :: more → Stored w (manhattanCmd io ext w args) d
      (.atom (.num .double) (.num (List.zipWith (fun a b => |a - b|) x.data y.data).sum))) ∧
    (rest = [] → manhattanCmd io ext w args = .ok ⟨w, .returned,
      some (.atom (.num .double) (.num (List.zipWith (fun a b => |a - b|) x.data y.data).sum))⟩) := by
  simp only [← argsFilter_eq] at *
  have step := manhattan_step io ext w args s t rest ha _ _ hs ht rfl rfl
  have core : manhattanCore ext (numImage n x) (numImage n y) =
      .ok (numVal .double (List.zipWith (fun a b => |a - b|) x.data y.data).sum) := by
    simp only [manhattanCore, if_true, manhattanNums_ok n x y wx wy hsz h0 hint, Res.ok_bind]
  rw [core] at step
  constructor
  · rintro d more rfl
    apply stored_put
    rw [step]
    rfl
  · rintro rfl
    rw [step]
    rfl

example (io : FileIO Pay Unit) (ext : Val Pay → Val Pay → Res (Val Pay)) := C119_command_partial io ext
  ⟨⟨[(['a'], numImage .uchar ⟨[2, 1], [3, 5]⟩), (['b'], numImage .uchar ⟨[2, 1], [7, 4]⟩)]⟩, ()⟩
  ["par".toList, "$a".toList, "$b".toList, "$c".toList] ['a'] ['b'] [['$', 'c']] (by decide +kernel) .uchar _ _ rfl rfl
  ⟨by decide, by decide, by decide⟩ ⟨by decide, by decide, by decide⟩ rfl (by decide) (fun h => by cases h)

/-- Violation: the difference of the `int` pixels 2147483647 and -1 is undefined behaviour. -/
theorem C119_command_violation (io : FileIO Pay F) (ext : Val Pay → Val Pay → Res (Val Pay))
    (w : World Pay F) (args : List Str) (s t : Str) (rest : List Str)
    (ha : plainWords args = ('$' :: s) :: ('$' :: t) :: rest)
    (hs : w.ws.retrieveAny s = some (numImage .int ⟨[1, 1], [2147483647]⟩))
    (ht : w.ws.retrieveAny t = some (numImage .int ⟨[1, 1], [-1]⟩)) :
    Fits .int 2147483647 ∧ Fits .int (-1) ∧ manhattanCmd io ext w args = .ub := by
  simp only [← argsFilter_eq] at *
  refine ⟨⟨2147483647, by norm_num, by norm_num, by norm_num⟩, ⟨-1, by norm_num, by norm_num, by norm_num⟩, ?_⟩
  rw [manhattan_step io ext w args s t rest ha _ _ hs ht rfl rfl]
  have : manhattanNums .int ⟨[1, 1], [2147483647]⟩ ⟨[1, 1], [-1]⟩ = .ub := by
    have g : Num.gap .int 2147483647 (-1) = .ub := by
      simp only [Num.gap, if_true, Num.wrap]
      norm_num
    rw [manhattanNums, if_neg (by simp)]
    simp only [zipRes, g, Res.ub_bind]
  simp only [manhattanCore, if_true, this, Res.ub_bind]

/-- `manhattan_distance` of two colour images of one type and one size stores the three distances of the
planes as a vector of `double`. -/
theorem C119_command_colour (io : FileIO Pay F) (ext : Val Pay → Val Pay → Res (Val Pay)) (w : World Pay F)
    (args : List Str) (s t d : Str) (more : List Str)
    (ha : plainWords args = ('$' :: s) :: ('$' :: t) :: ('$' :: d) :: more) (k : Nat)
    (hk : k = 10 ∨ k = 11 ∨ k = rgbDouble) (x y : Image (Px3 ℚ))
    (hs : w.ws.retrieveAny s = some (.atom (.image (.scalar k)) (.image3 x)))
    (ht : w.ws.retrieveAny t = some (.atom (.image (.scalar k)) (.image3 y)))
    (wx : x.WF) (wy : y.WF) (hsz : x.size = y.size) (h0 : 0 < x.size.prod) :
    Stored w (manhattanCmd io ext w args) d (.cont .vector (.num .double)
      ([(List.zipWith (fun p q => |p.c0 - q.c0|) x.data y.data).sum,
        (List.zipWith (fun p q => |p.c1 - q.c1|) x.data y.data).sum,
        (List.zipWith (fun p q => |p.c2 - q.c2|) x.data y.data).sum].map fun q => .atom (.num .double) (.num q))) := by
  simp only [← argsFilter_eq] at *
  obtain ⟨n, hn, hni⟩ : ∃ n, channelNum k = some n ∧ n ≠ .int := by
    rcases hk with rfl | rfl | rfl
    · exact ⟨.uchar, rfl, by simp⟩
    · exact ⟨.double, rfl, by simp⟩
    · exact ⟨.double, rfl, by simp⟩
  have hm : isMasterData (.image (.scalar k)) = true := by
    rcases hk with rfl | rfl | rfl <;> rfl
  obtain ⟨a0, a1, a2⟩ := Distance.getPlane_map 0 x wx h0
  obtain ⟨b0, b1, b2⟩ := Distance.getPlane_map 0 y wy (hsz ▸ h0)
  have m : ∀ ch : Px3 ℚ → ℚ, manhattanNums n ⟨x.size, x.data.map ch⟩ ⟨y.size, y.data.map ch⟩ =
      .ok (List.zipWith (fun p q => |ch p - ch q|) x.data y.data).sum := by
    intro ch
    rw [manhattanNums_ok n _ _ (wx.map ch) (wy.map ch) hsz h0 (fun h => absurd h hni), List.zipWith_map]
  apply stored_put
  rw [manhattan_step io ext w args s t _ ha _ _ hs ht hm hm]
  have l : Arith.applyEachSingle2 0 3 (manhattanNums n) x y = .ok
      [(List.zipWith (fun p q => |p.c0 - q.c0|) x.data y.data).sum,
        (List.zipWith (fun p q => |p.c1 - q.c1|) x.data y.data).sum,
        (List.zipWith (fun p q => |p.c2 - q.c2|) x.data y.data).sum] := by
    rw [Arith.applyEachSingle2, forUp, show List.range 3 = [0, 1, 2] from rfl]
    simp only [loop, a0, a1, a2, b0, b1, b2, Res.ok_bind, m]
    rfl
  simp only [manhattanCore, hn, if_true, hsz, ne_eq, not_true_eq_false, if_false, l, Res.ok_bind]
  rfl

example (io : FileIO Pay Unit) (ext : Val Pay → Val Pay → Res (Val Pay)) := C119_command_colour io ext
  ⟨⟨[(['a'], .atom (.image (.scalar 10)) (.image3 ⟨[2, 1], [⟨200, 7, 1⟩, ⟨2, 3, 4⟩]⟩)),
    (['b'], .atom (.image (.scalar 10)) (.image3 ⟨[2, 1], [⟨100, 9, 2⟩, ⟨255, 0, 4⟩]⟩))]⟩, ()⟩
  ["par".toList, "$a".toList, "$b".toList, "$c".toList] ['a'] ['b'] ['c'] [] (by decide +kernel) 10 (.inl rfl) _ _ rfl rfl
  ⟨by decide, by decide, by decide⟩ ⟨by decide, by decide, by decide⟩ rfl (by decide)

/-- Images of different sizes, of different pixel types, containers, and operands that do not exist:
nothing changes and nothing is printed as a result. -/
theorem C119_command_rejected (io : FileIO Pay F) (ext : Val Pay → Val Pay → Res (Val Pay)) (w : World Pay F)
    (args : List Str) (s t : Str) (rest : List Str)
    (ha : plainWords args = ('$' :: s) :: ('$' :: t) :: rest) :
    (∀ n x y, w.ws.retrieveAny s = some (numImage n x) → w.ws.retrieveAny t = some (numImage n y) →
      x.size ≠ y.size → Nothing w (manhattanCmd io ext w args)) ∧
    (∀ n m x y, w.ws.retrieveAny s = some (numImage n x) → w.ws.retrieveAny t = some (numImage m y) →
      n ≠ m → Nothing w (manhattanCmd io ext w args)) ∧
    (∀ k n items b, w.ws.retrieveAny s = some (.cont k (.num n) items) → w.ws.retrieveAny t = some b →
      DataTy b.ty → Nothing w (manhattanCmd io ext w args)) ∧
    ((w.ws.retrieveAny s = none ∨ (∃ v, w.ws.retrieveAny s = some v ∧ DataTy v.ty) ∧
        w.ws.retrieveAny t = none) → Nothing w (manhattanCmd io ext w args)) := by
  simp only [← argsFilter_eq] at *
  refine ⟨?_, ?_, ?_, ?_⟩
  · intro n x y hs ht hsz
    rw [Nothing, manhattan_step io ext w args s t rest ha _ _ hs ht rfl rfl]
    simp only [manhattanCore, if_true, manhattanNums, if_pos hsz, Res.throw_bind]
  · intro n m x y hs ht hnm
    rw [Nothing, manhattan_step io ext w args s t rest ha _ _ hs ht rfl rfl]
    simp only [manhattanCore, if_neg hnm]
  · intro k n items b hs ht hm
    rw [Nothing, manhattan_step io ext w args s t rest ha _ _ hs ht rfl (dataTy_iff.1 hm)]
    simp only [manhattanCore]
  · rintro (h | ⟨⟨v, hv, hm⟩, h⟩)
    · unfold Nothing manhattanCmd
      rw [ha]
      dsimp only
      rw [loadVar_none io _ w s (by simp [h])]
      rfl
    · unfold Nothing manhattanCmd
      rw [ha]
      dsimp only
      rw [loadVar io isMasterData w s v hv (dataTy_iff.1 hm)]
      dsimp only
      rw [loadVar_none io _ w t (by simp [h])]
      rfl

example (io : FileIO Pay Unit) (ext : Val Pay → Val Pay → Res (Val Pay)) :=
  (C119_command_rejected io ext
    ⟨⟨[(['a'], numImage .uchar ⟨[2, 1], [3, 5]⟩), (['b'], numImage .uchar ⟨[1, 2], [7, 4]⟩)]⟩, ()⟩
    ["par".toList, "$a".toList, "$b".toList, "$c".toList] ['a'] ['b'] [['$', 'c']] (by decide +kernel)).1 .uchar _ _ rfl rfl
    (by decide)

/-- Whatever the arguments, the command changes at most the variable named by its third argument. -/
theorem C119_command_frame (io : FileIO Pay F) (ext : Val Pay → Val Pay → Res (Val Pay)) (w : World Pay F)
    (args : List Str) (out : Out Pay F) (h : manhattanCmd io ext w args = .ok out) :
    out.world = w ∨ ∃ d, (plainWords args)[2]? = some ('$' :: d) ∧ OnlyVar w out.world d := by
  simp only [← argsFilter_eq] at *
  unfold manhattanCmd at h
  simp only [quiet, raise] at h
  split at h
  · rename_i in1 in2 rest hf
    split at h
    · injection h with h; subst h; exact Or.inl rfl
    · injection h with h; subst h; exact Or.inl rfl
    · split at h
      · injection h with h; subst h; exact Or.inl rfl
      · injection h with h; subst h; exact Or.inl rfl
      · split at h
        · cases h
        · injection h with h; subst h; exact Or.inl rfl
        · rcases deliver_frame w _ _ out h with e | ⟨d, e, ho⟩
          · exact Or.inl e
          · right
            refine ⟨d, ?_, ho⟩
            rw [hf]
            cases rest with
            | nil => simp at e
            | cons a rest => simpa using e
  · injection h with h; subst h; exact Or.inl rfl

example : (⟨[2, 1], [3, 5]⟩ : Image ℚ).WF ∧ (⟨[2, 1], [7, 4]⟩ : Image ℚ).WF ∧ 0 < [2, 1].prod ∧
    (List.zipWith (fun a b : ℚ => |a - b|) [3, 5] [7, 4]).sum = 5 ∧
    plainWords ["par".toList, "$a".toList, "$b".toList, "$c".toList] =
      ('$' :: ['a']) :: ('$' :: ['b']) :: [('$' :: ['c'])] :=
  ⟨⟨by decide, by decide, by decide⟩, ⟨by decide, by decide, by decide⟩, by decide, by decide +kernel,
    by decide +kernel⟩

end TinyDIP.Props
