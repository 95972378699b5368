import Verif.Props.CliCount
import Verif.Lemmas.Geometry

/-!
# Property C118: the commands constructRGB and grid
-/

namespace TinyDIP.Props

open TinyDIP.Cli

variable {F : Type}

/-- Splitting the linear indices reaches every position. -/
theorem splitIdx_mem {w h : Nat} {order : List Nat} (hp : order.Perm (List.range (w * h))) (x y : Nat) :
    (x, y) ∈ splitIdx w order ↔ x < w ∧ y < h := by
  unfold splitIdx
  rw [List.mem_map]
  constructor
  · rintro ⟨i, hi, e⟩
    rw [hp.mem_iff, List.mem_range] at hi
    injection e with e1 e2
    have hw : 0 < w := Nat.pos_of_mul_pos_right (by omega : 0 < w * h)
    subst e1 e2
    exact ⟨Nat.mod_lt _ hw, Nat.div_lt_of_lt_mul hi⟩
  · rintro ⟨hx, hy⟩
    refine ⟨x + w * y, ?_, ?_⟩
    · rw [hp.mem_iff, List.mem_range]
      calc x + w * y < w + w * y := by omega
        _ = w * (y + 1) := by rw [Nat.mul_add]; omega
        _ ≤ w * h := Nat.mul_le_mul_left _ hy
    · rw [Nat.add_mul_mod_self_left, Nat.mod_eq_of_lt hx, Nat.add_mul_div_left _ _ (by omega),
        Nat.div_eq_of_lt hx, Nat.zero_add]

theorem mergePlanes_ok {w h : Nat} {r g b : Image ℚ} {fr fg fb : Nat → Nat → ℚ} (sr : r.Shows w h fr)
    (sg : g.Shows w h fg) (sb : b.Shows w h fb) (pts : List (Nat × Nat))
    (hp : ∀ x y, (x, y) ∈ pts ↔ x < w ∧ y < h) :
    ∃ out, mergePlanes r g b pts (Image.ofSizes ⟨0, 0, 0⟩ [w, h]) = .ok out ∧
      out.Shows w h fun x y => ⟨fr x y, fg x y, fb x y⟩ := by
  unfold mergePlanes
  refine loop_fill (fun p => p) _ _ _ ?_ ?_ _ _ (ofSizes_shows _ sr.w_lt sr.h_lt sr.fits)
  · rintro ⟨x, y⟩ hm im f s
    obtain ⟨hx, hy⟩ := (hp x y).mp hm
    dsimp only
    have er : r.at' [x, y] = _ := sr.px x y hx hy
    have eg : g.at' [x, y] = _ := sg.px x y hx hy
    have eb : b.at' [x, y] = _ := sb.px x y hx hy
    rw [er, Res.ok_bind, eg, Res.ok_bind, eb, Res.ok_bind]
    exact s.set2 hx hy _
  · intro x y hx hy
    exact ⟨(x, y), (hp x y).mpr ⟨hx, hy⟩, rfl⟩

/-- `constructRGB $r $g $b $d` stores the colour image whose channels are the three 8-bit planes, with
any execution policy and in any order of the pixels. -/
theorem C118_construct (io : FileIO Pay F) (wd : World Pay F) (args : List Str) (vr vg vb d : Str)
    (more : List Str)
    (ha : plainWords args = ('$' :: vr) :: ('$' :: vg) :: ('$' :: vb) :: ('$' :: d) :: more)
    (w h : Nat) (r g b : Image ℚ) (fr fg fb : Nat → Nat → ℚ) (sr : r.Shows w h fr) (sg : g.Shows w h fg)
    (sb : b.Shows w h fb) (hr : wd.ws.retrieveAny vr = some (numImage .uchar r))
    (hg : wd.ws.retrieveAny vg = some (numImage .uchar g))
    (hb : wd.ws.retrieveAny vb = some (numImage .uchar b))
    (order : List Nat) (ho : order.Perm (List.range (w * h))) :
    ∃ out, Stored wd (constructRgbCmd io order wd args) d (.atom tyRgb (.image3 out)) ∧
      out.Shows w h fun x y => ⟨fr x y, fg x y, fb x y⟩ := by
  simp only [← argsFilter_eq] at *
  obtain ⟨out, e, s⟩ := mergePlanes_ok sr sg sb
    (if extractPolicy args = [] then iterYX w h else splitIdx w order) (by
      intro x y
      split
      · exact mem_iterYX
      · exact splitIdx_mem ho x y)
  refine ⟨out, ?_, s⟩
  apply stored_put
  unfold constructRgbCmd
  rw [ha]
  dsimp only
  rw [loadVar io _ wd vr _ hr (by simp [Val.ty]), loadVar io _ wd vg _ hg (by simp [Val.ty]),
    loadVar io _ wd vb _ hb (by simp [Val.ty])]
  dsimp only
  rw [sr.width, sr.height, sg.width, sg.height, sb.width, sb.height, if_neg (by simp), e]
  simp [saveArg, isVar, varName]

example (io : FileIO Pay Unit) := C118_construct io
  ⟨⟨[(['r'], numImage .uchar (picture 2 1 fun x _ => (x : ℚ))), (['g'], numImage .uchar (picture 2 1 fun _ _ => 7)),
    (['b'], numImage .uchar (picture 2 1 fun x _ => 255 - (x : ℚ)))]⟩, ()⟩
  ["$r".toList, "par".toList, "$g".toList, "$b".toList, "$d".toList] ['r'] ['g'] ['b'] ['d'] [] (by decide +kernel) 2 1 _ _ _
  _ _ _ (picture_shows 2 1 _) (picture_shows 2 1 _) (picture_shows 2 1 _) rfl rfl rfl [1, 0] (by decide)

/-- Planes of different sizes: the command fails and changes nothing. -/
theorem C118_construct_mismatch (io : FileIO Pay F) (wd : World Pay F) (args : List Str)
    (vr vg vb o : Str) (more : List Str)
    (ha : plainWords args = ('$' :: vr) :: ('$' :: vg) :: ('$' :: vb) :: o :: more)
    (r g b : Image ℚ) (hr : wd.ws.retrieveAny vr = some (numImage .uchar r))
    (hg : wd.ws.retrieveAny vg = some (numImage .uchar g))
    (hb : wd.ws.retrieveAny vb = some (numImage .uchar b)) (order : List Nat)
    (hne : r.size.take 2 ≠ g.size.take 2 ∨ r.size.take 2 ≠ b.size.take 2)
    (h2 : 2 ≤ r.size.length ∧ 2 ≤ g.size.length ∧ 2 ≤ b.size.length) :
    Failed wd (constructRgbCmd io order wd args) := by
  simp only [← argsFilter_eq] at *
  unfold Failed constructRgbCmd
  rw [ha]
  dsimp only
  rw [loadVar io _ wd vr _ hr (by simp [Val.ty]), loadVar io _ wd vg _ hg (by simp [Val.ty]),
    loadVar io _ wd vb _ hb (by simp [Val.ty])]
  dsimp only
  rw [if_pos]
  · rfl
  · obtain ⟨⟨r0, r1, rt, er⟩, ⟨g0, g1, gt, eg⟩, ⟨b0, b1, bt, eb⟩⟩ :
        (∃ a c t, r.size = a :: c :: t) ∧ (∃ a c t, g.size = a :: c :: t) ∧ ∃ a c t, b.size = a :: c :: t := by
      have : ∀ l : List Nat, 2 ≤ l.length → ∃ a c t, l = a :: c :: t := by
        intro l hl
        match l, hl with
        | a :: c :: t, _ => exact ⟨a, c, t, rfl⟩
      exact ⟨this _ h2.1, this _ h2.2.1, this _ h2.2.2⟩
    simp only [Image.width, Image.height, er, eg, eb] at hne ⊢
    simp at hne ⊢
    omega

example (io : FileIO Pay Unit) := C118_construct_mismatch io
  ⟨⟨[(['r'], numImage .uchar (picture 2 1 fun x _ => (x : ℚ))), (['g'], numImage .uchar (picture 1 2 fun _ _ => 7)),
    (['b'], numImage .uchar (picture 2 1 fun x _ => 255 - (x : ℚ)))]⟩, ()⟩
  ["$r".toList, "par".toList, "$g".toList, "$b".toList, "$d".toList] ['r'] ['g'] ['b'] ['$', 'd'] [] (by decide +kernel) _ _ _
  rfl rfl rfl [1, 0] (.inl (by decide)) (by decide)

/-- A plane that does not exist or is no 8-bit image, or a missing argument: nothing happens. -/
theorem C118_construct_rejected (io : FileIO Pay F) (wd : World Pay F) (args : List Str) (order : List Nat) :
    ((plainWords args).length < 4 → Nothing wd (constructRgbCmd io order wd args)) ∧
    (∀ vr vg vb o more, plainWords args = ('$' :: vr) :: ('$' :: vg) :: ('$' :: vb) :: o :: more →
      (∀ x, wd.ws.retrieveAny vr = some x → x.ty ≠ .image (.num .uchar)) →
      Nothing wd (constructRgbCmd io order wd args)) ∧
    (∀ vr vg vb o more r, plainWords args = ('$' :: vr) :: ('$' :: vg) :: ('$' :: vb) :: o :: more →
      wd.ws.retrieveAny vr = some (numImage .uchar r) →
      (∀ x, wd.ws.retrieveAny vg = some x → x.ty ≠ .image (.num .uchar)) →
      Nothing wd (constructRgbCmd io order wd args)) ∧
    (∀ vr vg vb o more r g, plainWords args = ('$' :: vr) :: ('$' :: vg) :: ('$' :: vb) :: o :: more →
      wd.ws.retrieveAny vr = some (numImage .uchar r) → wd.ws.retrieveAny vg = some (numImage .uchar g) →
      (∀ x, wd.ws.retrieveAny vb = some x → x.ty ≠ .image (.num .uchar)) →
      Nothing wd (constructRgbCmd io order wd args)) := by
  simp only [← argsFilter_eq] at *
  refine ⟨?_, ?_, ?_, ?_⟩
  · intro h
    unfold Nothing constructRgbCmd
    match hf : argsFilter args, h with
    | [], _ => rfl
    | [_], _ => rfl
    | [_, _], _ => rfl
    | [_, _, _], _ => rfl
    | _ :: _ :: _ :: _ :: _, h => simp only [List.length_cons] at h; omega
  · intro vr vg vb o more ha h
    unfold Nothing constructRgbCmd
    rw [ha]
    dsimp only
    rw [loadVar_none io _ wd vr (by intro x hx; simpa using h x hx)]
    rfl
  · intro vr vg vb o more r ha hr h
    unfold Nothing constructRgbCmd
    rw [ha]
    dsimp only
    rw [loadVar io _ wd vr _ hr (by simp [Val.ty]), loadVar_none io _ wd vg (by intro x hx; simpa using h x hx)]
    rfl
  · intro vr vg vb o more r g ha hr hg h
    unfold Nothing constructRgbCmd
    rw [ha]
    dsimp only
    rw [loadVar io _ wd vr _ hr (by simp [Val.ty]), loadVar io _ wd vg _ hg (by simp [Val.ty]),
      loadVar_none io _ wd vb (by intro x hx; simpa using h x hx)]
    rfl

/-- The colour of a grid pixel: black on the lines, white between. -/
def gridColour (cell x y : Nat) : Px3 ℚ :=
  if cell ∣ x ∨ cell ∣ y then ⟨0, 0, 0⟩ else ⟨255, 255, 255⟩

theorem gridImage_ok {w h g : Nat} (hg : 0 < g) (hw : w < 2 ^ 64) (hh : h < 2 ^ 64) (hwh : w * h < 2 ^ 64)
    (pts : List (Nat × Nat)) (hp : ∀ x y, (x, y) ∈ pts ↔ x < w ∧ y < h) :
    ∃ out, gridImage w h g pts = .ok out ∧ out.Shows w h (gridColour g) := by
  unfold gridImage
  refine loop_fill (fun p => p) _ _ _ ?_ ?_ _ _ (ofSizes_shows _ hw hh hwh)
  · rintro ⟨x, y⟩ hm im f s
    obtain ⟨hx, hy⟩ := (hp x y).mp hm
    have : gridPixel g x y = .ok (gridColour g x y) := by
      unfold gridPixel gridColour
      rw [if_neg (by omega)]
      simp only [Nat.dvd_iff_mod_eq_zero]
      split <;> rfl
    dsimp only
    rw [this, Res.ok_bind]
    exact s.set2 hx hy _
  · intro x y hx hy
    exact ⟨(x, y), (hp x y).mpr ⟨hx, hy⟩, rfl⟩

/-- `grid $d width height [cell]` stores a `width × height` colour image, black exactly where the column
or the row is a multiple of `cell` (10 when it is not given), with any execution policy and in any order
of the pixels.
Full statement: for all cell sizes; see `C118_grid_violation`. -/
theorem C118_grid_partial (io : FileIO Pay F) (wd : World Pay F) (args : List Str) (d : Str) (w h cell : Nat)
    (rest : List Str)
    (ha : plainWords args = ('$' :: d) :: Nat.toDigits 10 w :: Nat.toDigits 10 h :: rest)
    (hr : rest = [] ∧ cell = 10 ∨ ∃ more, rest = Nat.toDigits 10 cell :: more)
    (hw : w < 2 ^ 64) (hh : h < 2 ^ 64) (hwh : w * h < 2 ^ 64) (hc : cell < 2 ^ 64) (hpos : 0 < cell)
    (order : List Nat) (ho : order.Perm (List.range (w * h))) :
    ∃ out, Stored wd (gridCmd io order wd args) d (.atom tyRgb (.image3 out)) ∧
      out.Shows w h fun x y => if cell ∣ x ∨ cell ∣ y then ⟨0, 0, 0⟩ else ⟨255, 255, 255⟩ := by
  simp only [← argsFilter_eq] at *
  obtain ⟨out, e, s⟩ := gridImage_ok hpos hw hh hwh
    (if lastPolicy args = [] then iterYX w h else splitIdx w order) (by
      intro x y
      split
      · exact mem_iterYX
      · exact splitIdx_mem ho x y)
  refine ⟨out, ?_, s⟩
  apply stored_put
  unfold gridCmd
  rw [ha]
  have pw : parseSize (Nat.toDigits 10 w) = some w := parseSize_toStr hw
  have ph : parseSize (Nat.toDigits 10 h) = some h := parseSize_toStr hh
  have pc : parseSize (Nat.toDigits 10 cell) = some cell := parseSize_toStr hc
  dsimp only
  rcases hr with ⟨rfl, rfl⟩ | ⟨more, rfl⟩
  · rw [pw, ph]
    dsimp only
    rw [e]
    simp [saveArg, isVar, varName]
  · dsimp only
    rw [pw, ph, pc]
    dsimp only
    rw [e]
    simp [saveArg, isVar, varName]

example (io : FileIO Pay Unit) := C118_grid_partial io ⟨⟨[]⟩, ()⟩ ["$d".toList, "par".toList, "30".toList, "20".toList, "7".toList]
  ['d'] 30 20 7 [['7']] (by decide +kernel) (.inr ⟨[], by decide +kernel⟩) (by decide) (by decide) (by decide) (by decide) (by decide) _
  (List.reverse_perm _)

/-- A cell size of zero is undefined behaviour (division by zero) for every image with a pixel. -/
theorem C118_grid_violation (io : FileIO Pay F) (wd : World Pay F) (args : List Str) (o : Str) (w h : Nat)
    (more : List Str)
    (ha : plainWords args = o :: Nat.toDigits 10 w :: Nat.toDigits 10 h :: Nat.toDigits 10 0 :: more)
    (hw : w < 2 ^ 64) (hh : h < 2 ^ 64) (h0 : 0 < w * h) (order : List Nat)
    (ho : order.Perm (List.range (w * h))) : gridCmd io order wd args = .ub := by
  simp only [← argsFilter_eq] at *
  unfold gridCmd
  rw [ha]
  have pw : parseSize (Nat.toDigits 10 w) = some w := parseSize_toStr hw
  have ph : parseSize (Nat.toDigits 10 h) = some h := parseSize_toStr hh
  have pc : parseSize (Nat.toDigits 10 0) = some 0 := parseSize_toStr (by norm_num)
  dsimp only
  rw [pw, ph, pc]
  dsimp only
  have hpts : ∃ p ps, (if lastPolicy args = [] then iterYX w h else splitIdx w order) = p :: ps := by
    have hx : 0 < w := Nat.pos_of_mul_pos_right h0
    have hy : 0 < h := Nat.pos_of_mul_pos_left h0
    have : ((0, 0) : Nat × Nat) ∈ (if lastPolicy args = [] then iterYX w h else splitIdx w order) := by
      split
      · exact mem_iterYX.mpr ⟨hx, hy⟩
      · exact (splitIdx_mem ho 0 0).mpr ⟨hx, hy⟩
    exact List.exists_cons_of_ne_nil (List.ne_nil_of_mem this)
  obtain ⟨p, ps, hpp⟩ := hpts
  have : gridImage w h 0 (if lastPolicy args = [] then iterYX w h else splitIdx w order) = .ub := by
    rw [hpp]
    simp [gridImage, loop, gridPixel]
  rw [this]

/-- A size that is no number: the command fails; fewer than three arguments: nothing happens. -/
theorem C118_grid_rejected (io : FileIO Pay F) (wd : World Pay F) (args : List Str) (order : List Nat) :
    ((plainWords args).length < 3 → Nothing wd (gridCmd io order wd args)) ∧
    (∀ o a b rest, plainWords args = o :: a :: b :: rest →
      ((a.head? ≠ none ∧ ∀ c ∈ a, ¬ c.isDigit) ∨ (b.head? ≠ none ∧ ∀ c ∈ b, ¬ c.isDigit)) →
      Failed wd (gridCmd io order wd args)) := by
  simp only [← argsFilter_eq] at *
  refine ⟨?_, ?_⟩
  · intro h
    unfold Nothing gridCmd
    match hf : argsFilter args, h with
    | [], _ => rfl
    | [_], _ => rfl
    | [_, _], _ => rfl
    | _ :: _ :: _ :: _, h => simp only [List.length_cons] at h; omega
  · intro o a b rest ha hab
    have key : ∀ s : Str, (∀ c ∈ s, ¬ c.isDigit) → parseSize s = none := by
      intro s hs
      have hsub : ∀ c ∈ sanitize s, ¬ c.isDigit := by
        intro c hc
        apply hs c
        unfold sanitize at hc
        have h1 := (List.dropWhile_sublist _).subset hc
        rw [List.mem_reverse] at h1
        have h2 := (List.dropWhile_sublist _).subset h1
        rwa [List.mem_reverse] at h2
      have : (sanitize s).takeWhile Char.isDigit = [] := by
        cases hz : sanitize s with
        | nil => rfl
        | cons c t =>
          have := hsub c (by rw [hz]; simp)
          simp [List.takeWhile_cons, this]
      simp [parseSize, this]
    unfold Failed gridCmd
    rw [ha]
    dsimp only
    rcases hab with ⟨_, h⟩ | ⟨_, h⟩
    · rw [key a h]; rfl
    · rw [key b h]
      cases parseSize a <;> rfl

/-- Both commands change at most the variable, or the file, named by the output argument. -/
theorem C118_frame (io : FileIO Pay F) (wd : World Pay F) (args : List Str) (order : List Nat) (out : Out Pay F) :
    (constructRgbCmd io order wd args = .ok out → out.world = wd ∨ ∃ o, (plainWords args)[3]? = some o ∧
      ((∃ d, o = '$' :: d ∧ OnlyVar wd out.world d) ∨ (isVar o = false ∧ OnlyFile io wd out.world o))) ∧
    (gridCmd io order wd args = .ok out → out.world = wd ∨ ∃ o, (plainWords args)[0]? = some o ∧
      ((∃ d, o = '$' :: d ∧ OnlyVar wd out.world d) ∨ (isVar o = false ∧ OnlyFile io wd out.world o))) := by
  simp only [← argsFilter_eq] at *
  have triv : ∀ c, (Res.ok ⟨wd, c, none⟩ : Res (Out Pay F)) = .ok out → out.world = wd := by
    intro c h; injection h with h; subst h; rfl
  constructor
  · intro h
    unfold constructRgbCmd at h
    simp only [quiet, raise] at h
    split at h
    · rename_i rA gA bA o more hf
      split at h
      · exact Or.inl (triv _ h)
      · exact Or.inl (triv _ h)
      · split at h
        · exact Or.inl (triv _ h)
        · exact Or.inl (triv _ h)
        · split at h
          · exact Or.inl (triv _ h)
          · exact Or.inl (triv _ h)
          · split at h
            · split at h
              · exact Or.inl (triv _ h)
              · split at h
                · cases h
                · exact Or.inl (triv _ h)
                · injection h with h; subst h
                  right
                  exact ⟨o, by rw [hf]; rfl, saveArg_frame io wd o _⟩
            · exact Or.inl (triv _ h)
    · exact Or.inl (triv _ h)
  · intro h
    unfold gridCmd at h
    simp only [quiet, raise] at h
    split at h
    · rename_i o a b rest hf
      split at h
      · split at h
        · cases h
        · exact Or.inl (triv _ h)
        · injection h with h; subst h
          right
          exact ⟨o, by rw [hf]; rfl, saveArg_frame io wd o _⟩
      · exact Or.inl (triv _ h)
    · exact Or.inl (triv _ h)

/-- Three planes of one size. -/
example : ∃ (wd : World Pay Unit) (r g b : Image ℚ),
    plainWords ["$r".toList, "par".toList, "$g".toList, "$b".toList, "$d".toList] =
      [['$', 'r'], ['$', 'g'], ['$', 'b'], ['$', 'd']] ∧
    wd.ws.retrieveAny ['r'] = some (numImage .uchar r) ∧ wd.ws.retrieveAny ['g'] = some (numImage .uchar g) ∧
    wd.ws.retrieveAny ['b'] = some (numImage .uchar b) ∧ r.Shows 2 1 (fun x _ => x) ∧
    g.Shows 2 1 (fun _ _ => 7) ∧ b.Shows 2 1 (fun x _ => 255 - x) ∧ [1, 0].Perm (List.range (2 * 1)) := by
  refine ⟨⟨⟨[(['r'], numImage .uchar ⟨[2, 1], [0, 1]⟩), (['g'], numImage .uchar ⟨[2, 1], [7, 7]⟩),
    (['b'], numImage .uchar ⟨[2, 1], [255, 254]⟩)]⟩, ()⟩, ⟨[2, 1], [0, 1]⟩, ⟨[2, 1], [7, 7]⟩,
    ⟨[2, 1], [255, 254]⟩, by decide +kernel, rfl, rfl, rfl, ?_, ?_, ?_, by decide⟩
  all_goals
    refine Image.Shows.of_data (by norm_num) (by norm_num) (by norm_num) rfl rfl ?_
    intro x y hx hy
    obtain rfl : y = 0 := by omega
    obtain rfl | rfl : x = 0 ∨ x = 1 := by omega
    all_goals norm_num

example : plainWords ["$d".toList, "par".toList, "30".toList, "20".toList] =
    [['$', 'd'], Nat.toDigits 10 30, Nat.toDigits 10 20] := by decide +kernel

end TinyDIP.Props
