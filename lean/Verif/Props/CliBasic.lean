import Verif.Props.Workspace
import Verif.Props.Elements
import Verif.Lemmas.Bundle
import Verif.Lemmas.CliNum
import Verif.Lemmas.Pixelwise
import Verif.Spec.CliData
import Mathlib.Algebra.BigOperators.Group.List.Lemmas

/-!
# Properties C141 and C142: the commands copy, remove, rename and read; zeros and ones
-/

namespace TinyDIP.Props

open TinyDIP.Cli

variable {P F : Type}

/-! ## C141 -/

/-- `copy $s $d` makes `d` hold the value of `s` and changes nothing else; without a variable `s` it changes
nothing. -/
theorem C141_copy (w : World P F) (s d : Str) (more : List Str) :
    (∀ v, w.ws.retrieveAny s = some v →
      ∃ w', copyCmd w (('$' :: s) :: ('$' :: d) :: more) = (w', .returned) ∧ w'.ws.retrieveAny d = some v ∧
        OnlyVar w w' d) ∧
    (w.ws.retrieveAny s = none → copyCmd w (('$' :: s) :: ('$' :: d) :: more) = (w, .returned)) := by
  constructor
  · intro v hv
    refine ⟨{ w with ws := w.ws.put d v }, ?_, ?_, onlyVar_put w d _⟩
    · simp [copyCmd, isVar, varName, hv]
    · simp [Workspace.retrieveAny_put]
  · intro h
    simp [copyCmd, isVar, varName, h]

example : (⟨⟨[(['x'], .atom tyDouble 9)]⟩, ()⟩ : World Nat Unit).ws.retrieveAny ['x'] = some (.atom tyDouble 9) :=
  rfl

theorem removeAll_retrieve (ws : Workspace (Val P)) (args : List Str) (m : Str) :
    ((∃ v, '$' :: v ∈ args ∧ SameVar m v) → (removeAll ws args).retrieveAny m = none) ∧
      ((∀ v, '$' :: v ∈ args → ¬ SameVar m v) → (removeAll ws args).retrieveAny m = ws.retrieveAny m) := by
  induction args generalizing ws with
  | nil => exact ⟨fun ⟨v, h, _⟩ => by simp at h, fun _ => rfl⟩
  | cons a as ih =>
    have hdec : (∃ v, a = '$' :: v) ∨ isVar a = false := by
      cases a with
      | nil => right; rfl
      | cons c cs =>
        by_cases hc : c = '$'
        · exact Or.inl ⟨cs, by rw [hc]⟩
        · right; simp [isVar, hc]
    rcases hdec with ⟨u, rfl⟩ | hv
    · have e : removeAll ws (('$' :: u) :: as) = removeAll (ws.remove u).1 as := by
        simp [removeAll, isVar, varName]
      rw [e]
      have hrem := C60_remove ws u m
      constructor
      · rintro ⟨v, hmem, hs⟩
        by_cases hin : ∃ v', '$' :: v' ∈ as ∧ SameVar m v'
        · exact (ih _).1 hin
        · rw [(ih _).2 (fun v' h1 h2 => hin ⟨v', h1, h2⟩)]
          rcases List.mem_cons.1 hmem with h | h
          · injection h with _ h
            subst h
            exact hrem.1 hs
          · exact absurd ⟨v, h, hs⟩ hin
      · intro hno
        rw [(ih _).2 (fun v h => hno v (by simp [h])), hrem.2.1 (hno u (by simp))]
    · have e : removeAll ws (a :: as) = removeAll ws as := by simp [removeAll, hv]
      rw [e]
      have hne : ∀ v, '$' :: v ≠ a := by
        rintro v rfl
        simp [isVar] at hv
      constructor
      · rintro ⟨v, hmem, hs⟩
        rcases List.mem_cons.1 hmem with h | h
        · exact absurd h (hne v)
        · exact (ih _).1 ⟨v, h, hs⟩
      · intro hno
        exact (ih _).2 (fun v h => hno v (by simp [h]))

/-- `remove $a $b ...` removes exactly the variables named; other arguments are skipped. -/
theorem C141_remove (w : World P F) (args : List Str) (h : args ≠ ["all".toList]) :
    ∃ w', removeCmd w args = (w', .returned) ∧ w'.fs = w.fs ∧
      ∀ m, ((∃ v, '$' :: v ∈ args ∧ SameVar m v) → w'.ws.retrieveAny m = none) ∧
        ((∀ v, '$' :: v ∈ args → ¬ SameVar m v) → w'.ws.retrieveAny m = w.ws.retrieveAny m) := by
  have e : "all".toList = sAll := by decide
  rw [e] at h
  refine ⟨{ w with ws := removeAll w.ws args }, ?_, rfl, removeAll_retrieve w.ws args⟩
  simp [removeCmd, h]

/-- Two variables of three, one of them written with a blank. -/
example : (removeCmd (⟨⟨[(['a'], .atom tyDouble 1), (['b'], .atom tyDouble 2), (['c'], .atom tyDouble 3)]⟩, ()⟩ :
    World Nat Unit) ["$a".toList, "b".toList, "$ c".toList]).1.ws.store.map (·.1) = [['b']] := by decide +kernel

/-- `remove all` empties the workspace. -/
theorem C141_remove_all (w : World P F) :
    ∃ w', removeCmd w ["all".toList] = (w', .returned) ∧ w'.fs = w.fs ∧ ∀ m, w'.ws.retrieveAny m = none := by
  have e : "all".toList = sAll := by decide
  rw [e]
  exact ⟨{ w with ws := w.ws.clear }, by simp [removeCmd], rfl, fun m => rfl⟩

/-- `rename $old $new` for different names moves the value; a missing variable leaves everything as it was. For
equal names see `C61_violation`. -/
theorem C141_rename_partial (w : World P F) (old new : Str) (more : List Str) (hne : ¬ SameVar old new) :
    ∃ w', renameCmd w (('$' :: old) :: ('$' :: new) :: more) = (w', .returned) ∧ w'.fs = w.fs ∧
      (∀ v, w.ws.retrieveAny old = some v →
        w'.ws.retrieveAny new = some v ∧ w'.ws.retrieveAny old = none ∧
          ∀ m, ¬ SameVar m old → ¬ SameVar m new → w'.ws.retrieveAny m = w.ws.retrieveAny m) ∧
      (w.ws.retrieveAny old = none → w' = w) := by
  refine ⟨{ w with ws := (w.ws.rename old new).1 }, ?_, rfl, fun v hv => ?_, fun hv => ?_⟩
  · simp [renameCmd, isVar, varName]
  · exact (C61_partial w.ws old new v hv hne).2
  · rw [C61_missing_partial w.ws old new hv]

example : ¬ SameVar ['a'] ['b'] ∧
    (⟨⟨[(['a'], .atom tyDouble 9)]⟩, ()⟩ : World Nat Unit).ws.retrieveAny ['a'] = some (.atom tyDouble 9) := by
  rw [sameVar_iff]; exact ⟨by decide, rfl⟩

/-- Too few arguments, or one of the two that does not begin with a dollar sign: `copy` and `rename` change
nothing. -/
theorem C141_rejected (w : World P F) (args : List Str)
    (h : args.length < 2 ∨ ∃ a ∈ args.take 2, ∀ v, a ≠ '$' :: v) :
    copyCmd w args = (w, .returned) ∧ renameCmd w args = (w, .returned) := by
  have key : ∀ a : Str, (∀ v, a ≠ '$' :: v) → isVar a = false := by
    intro a ha
    cases a with
    | nil => rfl
    | cons c cs =>
      have : c ≠ '$' := fun e => ha cs (by rw [e])
      simp [isVar, this]
  match args with
  | [] => exact ⟨rfl, rfl⟩
  | [_] => exact ⟨rfl, rfl⟩
  | a :: b :: r =>
    rcases h with h | ⟨x, hx, hv⟩
    · simp at h; omega
    · simp only [List.take_succ_cons, List.take_zero, List.mem_cons, List.not_mem_nil, or_false] at hx
      rcases hx with rfl | rfl
      · simp [copyCmd, renameCmd, key _ hv]
      · simp [copyCmd, renameCmd, key _ hv]

example : ∃ a ∈ (["$x".toList, "y".toList] : List Str).take 2, ∀ v, a ≠ '$' :: v :=
  ⟨['y'], by decide, fun v h => by injection h with h _; revert h; decide⟩

/-- `read file $d` stores the image the file holds; when the file cannot be read the command fails and changes
nothing; an output that is no variable changes nothing. Also when the file name is typed with quotes, unless it begins
with `$`, see `C141_quoted_variable`. -/
theorem C141_read (io : FileIO P F) (w : World P F) (f name d : Str) (more : List Str) (hf : ∀ v, f ≠ '$' :: v)
    (hm : Means f name) (hn : ∀ v, name ≠ '$' :: v) :
    (∀ v, io.load w.fs name = some v →
      ∃ w', readCmd io pathStem w (f :: ('$' :: d) :: more) = (w', .returned) ∧ w'.ws.retrieveAny d = some v ∧
        OnlyVar w w' d) ∧
    (io.load w.fs name = none → readCmd io pathStem w (f :: ('$' :: d) :: more) = (w, .threw)) ∧
    ((∀ v, d ≠ '$' :: v) → readCmd io pathStem w (f :: d :: more) = (w, .returned)) := by
  have key : ∀ a : Str, (∀ v, a ≠ '$' :: v) → isVar a = false := by
    intro a ha
    cases a with
    | nil => rfl
    | cons c cs =>
      have : c ≠ '$' := fun e => ha cs (by rw [e])
      simp [isVar, this]
  have hs := means_iff.1 hm
  refine ⟨fun v hv => ?_, fun hv => ?_, fun hd => ?_⟩
  · refine ⟨{ w with ws := w.ws.put d v }, ?_, ?_, onlyVar_put w d _⟩
    · have hl : loadArg io isMasterImage w f = .ok (some v) := by simp [loadArg, key f hf, hs, key name hn, hv]
      simp only [readCmd, hl]
      simp [isVar, saveArg, varName]
    · simp [Workspace.retrieveAny_put]
  · have hl : loadArg io isMasterImage w f = .error () := by simp [loadArg, key f hf, hs, key name hn, hv]
    simp only [readCmd, hl]
    simp [isVar]
  · simp [readCmd, key d hd]

example (io : FileIO P F) (w : World P F) := C141_read io w "\"img/lena.bmp\"".toList "img/lena.bmp".toList ['d'] []
  (fun v h => by
    have := congrArg List.head? h
    rw [List.head?_cons] at this
    revert this
    decide +kernel) (means_iff.2 (by decide +kernel))
  (fun v h => by
    have := congrArg List.head? h
    rw [List.head?_cons] at this
    revert this
    decide +kernel)

theorem quoted_of_type (io : FileIO P F) (w : World P F) (x d : Str) (more : List Str) (t : Ty) (hx : Means x x)
    (hty : fileTy ('$' :: x) = t) :
    let f : Str := '"' :: '$' :: (x ++ ['"'])
    (∀ v, w.ws.retrieveAny x = some v → v.ty = t →
      ∃ w', readCmd io pathStem w (f :: ('$' :: d) :: more) = (w', .returned) ∧ w'.ws.retrieveAny d = some v ∧
        OnlyVar w w' d) ∧
    ((∀ v, w.ws.retrieveAny x = some v → v.ty ≠ t) →
      readCmd io pathStem w (f :: ('$' :: d) :: more) = (w, .threw)) := by
  intro f
  have hm : Means f ('$' :: x) := by
    refine ⟨⟨['"'], ['"'], by simp [f], by simp [Junk], by simp [Junk]⟩, by simp [Junk], ?_⟩
    intro c hc
    cases x with
    | nil => simp only [List.getLast?_singleton, Option.some.injEq] at hc; subst hc; simp [Junk]
    | cons a as => exact hx.2.2 c (by simpa [List.getLast?_cons_cons] using hc)
  have hs := means_iff.1 hm
  have hsx := means_iff.1 hx
  have hv1 : isVar f = false := by simp [f, isVar]
  have hv2 : isVar ('$' :: x) = true := by simp [isVar]
  have hname : varName ('$' :: x) = x := rfl
  have hl : loadArg io isMasterImage w f = match w.ws.retrieve t x with
      | some v => .ok (some v)
      | none => .error () := by
    rw [loadArg, hs, hty, hv1, hv2, hname]
    rfl
  refine ⟨fun v hv ht => ⟨{ w with ws := w.ws.put d v }, ?_, ?_, onlyVar_put w d _⟩, fun h => ?_⟩
  · have hr : w.ws.retrieve t x = some v := by
      rw [Workspace.retrieveAny] at hv
      simp [Workspace.retrieve, hv, ht]
    rw [hr] at hl
    simp only [readCmd, hl]
    simp [isVar, saveArg, varName]
  · simp [Workspace.retrieveAny_put]
  · have hr : w.ws.retrieve t x = none := by
      simp only [Workspace.retrieveAny] at h
      unfold Workspace.retrieve
      cases e : w.ws.find (sanitize x) with
      | none => rfl
      | some v => simp [h v e]
    rw [hr] at hl
    simp only [readCmd, hl]
    simp [isVar]

/-- A variable between quotes is taken as a variable and not as a file, but only when it holds an image of the type
that a file with that name would hold: the colour images for names without an extension. Otherwise the command fails,
whatever image the variable holds. -/
theorem C141_quoted_variable (io : FileIO P F) (w : World P F) (x d : Str) (more : List Str) (hx : Means x x)
    (hdot : '.' ∉ x) (hsl : '/' ∉ x) :
    let f : Str := '"' :: '$' :: (x ++ ['"'])
    (∀ v, w.ws.retrieveAny x = some v → v.ty = tyRgb →
      ∃ w', readCmd io pathStem w (f :: ('$' :: d) :: more) = (w', .returned) ∧ w'.ws.retrieveAny d = some v ∧
        OnlyVar w w' d) ∧
    ((∀ v, w.ws.retrieveAny x = some v → v.ty ≠ tyRgb) →
      readCmd io pathStem w (f :: ('$' :: d) :: more) = (w, .threw)) := by
  have hext : pathExt ('$' :: x) = [] := by
    have h1 : ('$' :: x).reverse.takeWhile (· != '/') = ('$' :: x).reverse := by
      have := List.takeWhile_append_of_pos (p := (· != '/')) (l₁ := ('$' :: x).reverse) (l₂ := []) ?_
      · simpa using this
      intro c hc
      rw [List.mem_reverse, List.mem_cons] at hc
      rw [bne_iff_ne]
      rintro rfl
      rcases hc with h | h
      · revert h; decide
      · exact hsl h
    have h2 : ('$' :: x).reverse.dropWhile (· != '.') = [] := by
      have := List.dropWhile_append_of_pos (p := (· != '.')) (l₁ := ('$' :: x).reverse) (l₂ := []) ?_
      · simpa using this
      intro c hc
      rw [List.mem_reverse, List.mem_cons] at hc
      rw [bne_iff_ne]
      rintro rfl
      rcases hc with h | h
      · revert h; decide
      · exact hdot h
    unfold pathExt
    simp only [h1, List.reverse_reverse]
    rw [if_neg (by intro h; injection h with h _; revert h; decide)]
    unfold splitExt
    simp only [h2]
    rfl
  have hty : fileTy ('$' :: x) = tyRgb := by
    unfold fileTy
    rw [hext]
    decide
  exact quoted_of_type io w x d more tyRgb hx hty

/-- `read "$g" $d` fails when `$g` is a grey image; `read $g $d` works. -/
example (io : FileIO Nat Unit) : let w : World Nat Unit := ⟨⟨[(['g'], .atom tyDouble 5)]⟩, ()⟩
    readCmd io pathStem w ["\"$g\"".toList, "$d".toList] = (w, .threw) ∧
      (readCmd io pathStem w ["$g".toList, "$d".toList]).1.ws.retrieveAny ['d'] = some (.atom tyDouble 5) :=
  ⟨(C141_quoted_variable io _ ['g'] ['d'] [] (means_iff.2 (by decide +kernel)) (by decide) (by decide)).2
    (by rintro v hv; cases hv; decide), rfl⟩

/-- With an extension the type that is asked for is the one of files with that extension, in any case of letters:
grey images for `dbmp` and `csv`, HSV images for `hsv`, colour images otherwise. -/
theorem C141_quoted_extension (io : FileIO P F) (w : World P F) (base ext d : Str) (more : List Str) (t : Ty)
    (hx : Means (base ++ '.' :: ext) (base ++ '.' :: ext)) (hb : '/' ∉ base) (he : '.' ∉ ext) (hes : '/' ∉ ext)
    (ht : t = if ext.map Char.toLower ∈ ["dbmp".toList, "csv".toList] then tyDouble
      else if ext.map Char.toLower = "hsv".toList then tyHsv else tyRgb) :
    let f : Str := '"' :: '$' :: (base ++ '.' :: ext ++ ['"'])
    (∀ v, w.ws.retrieveAny (base ++ '.' :: ext) = some v → v.ty = t →
      ∃ w', readCmd io pathStem w (f :: ('$' :: d) :: more) = (w', .returned) ∧ w'.ws.retrieveAny d = some v ∧
        OnlyVar w w' d) ∧
    ((∀ v, w.ws.retrieveAny (base ++ '.' :: ext) = some v → v.ty ≠ t) →
      readCmd io pathStem w (f :: ('$' :: d) :: more) = (w, .threw)) := by
  have hpe : pathExt ('$' :: (base ++ '.' :: ext)) = '.' :: ext.map Char.toLower := by
    have h1 : ('$' :: (base ++ '.' :: ext)).reverse.takeWhile (· != '/') = ('$' :: (base ++ '.' :: ext)).reverse := by
      have := List.takeWhile_append_of_pos (p := (· != '/')) (l₁ := ('$' :: (base ++ '.' :: ext)).reverse) (l₂ := []) ?_
      · simpa using this
      intro c hc
      rw [List.mem_reverse, List.mem_cons, List.mem_append, List.mem_cons] at hc
      rw [bne_iff_ne]
      rintro rfl
      rcases hc with h | h | h | h
      · revert h; decide
      · exact hb h
      · revert h; decide
      · exact hes h
    have hne : ∀ c ∈ ext.reverse, (c != '.') = true := by
      intro c hc
      rw [List.mem_reverse] at hc
      rw [bne_iff_ne]
      rintro rfl
      exact he hc
    have e0 : ('$' :: (base ++ '.' :: ext)).reverse = ext.reverse ++ '.' :: (base.reverse ++ ['$']) := by simp
    have h2 : ('$' :: (base ++ '.' :: ext)).reverse.takeWhile (· != '.') = ext.reverse := by
      rw [e0, List.takeWhile_append_of_pos hne]
      simp
    have h3 : ('$' :: (base ++ '.' :: ext)).reverse.dropWhile (· != '.') = '.' :: (base.reverse ++ ['$']) := by
      rw [e0, List.dropWhile_append_of_pos hne]
      simp
    unfold pathExt
    simp only [h1, List.reverse_reverse]
    rw [if_neg (by intro h; injection h with h _; revert h; decide)]
    unfold splitExt
    simp only [h2, h3]
    cases hbr : base.reverse with
    | nil => simp
    | cons a as => simp
  have hty : fileTy ('$' :: (base ++ '.' :: ext)) = t := by
    unfold fileTy
    rw [hpe, ht]
    generalize ext.map Char.toLower = l
    have c1 : ('.' :: l = extDbmp ∨ '.' :: l = extCsv) ↔ l ∈ ["dbmp".toList, "csv".toList] := by
      have a : "dbmp".toList = ['d', 'b', 'm', 'p'] := by decide
      have b : "csv".toList = ['c', 's', 'v'] := by decide
      simp [extDbmp, extCsv, a, b]
    have c2 : ('.' :: l = extHsv) ↔ l = "hsv".toList := by
      have a : "hsv".toList = ['h', 's', 'v'] := by decide
      simp [extHsv, a]
    simp only [c1, c2]
  exact quoted_of_type io w _ d more t hx hty

/-- `read "$a.csv" $d` works when `$a.csv` is a grey image. -/
example (io : FileIO Nat Unit) : let w : World Nat Unit := ⟨⟨[("a.csv".toList, .atom tyDouble 5)]⟩, ()⟩
    ∃ w', readCmd io pathStem w ["\"$a.csv\"".toList, "$d".toList] = (w', .returned) ∧
      w'.ws.retrieveAny ['d'] = some (.atom tyDouble 5) := by
  intro w
  obtain ⟨w', h1, h2, -⟩ := (C141_quoted_extension io w ['a'] ['c', 's', 'v'] ['d'] [] tyDouble
    (means_iff.2 (by decide +kernel)) (by decide) (by decide) (by decide) (by decide)).1 (.atom tyDouble 5) rfl rfl
  exact ⟨w', h1, h2⟩

theorem pathStem_of (dir base ext : Str) (hdir : dir = [] ∨ ∃ d, dir = d ++ ['/']) (hb : base ≠ [])
    (hbs : '/' ∉ base) (he : '.' ∉ ext) (hes : '/' ∉ ext) (hdd : base ≠ ['.'] ∨ ext ≠ []) :
    pathStem (dir ++ base ++ '.' :: ext) = base := by
  have hall : ∀ c ∈ (base ++ '.' :: ext).reverse, (c != '/') = true := by
    intro c hc
    rw [List.mem_reverse] at hc
    simp only [List.mem_append, List.mem_cons] at hc
    rw [bne_iff_ne]
    rintro rfl
    rcases hc with h | h | h
    · exact hbs h
    · revert h; decide
    · exact hes h
  have hname : ((dir ++ base ++ '.' :: ext).reverse.takeWhile (· != '/')).reverse = base ++ '.' :: ext := by
    rw [List.append_assoc, List.reverse_append, List.takeWhile_append_of_pos hall]
    rcases hdir with rfl | ⟨d, rfl⟩
    · simp
    · simp
  unfold pathStem
  rw [hname]
  rw [if_neg, splitExt_of (stem := base) (ext := '.' :: ext) ⟨rfl, hb, ext, rfl, he⟩]
  intro h
  match base, hb with
  | [a], _ =>
    simp only [List.cons_append, List.nil_append, List.cons.injEq] at h
    rcases hdd with hh | hh
    · exact hh (by rw [h.1])
    · exact hh h.2.2
  | [a, b], _ => simp at h
  | a :: b :: c :: r, _ => simp at h

/-- `read dir/base.ext` stores the image under the name `base`. -/
theorem C141_read_default (io : FileIO P F) (w : World P F) (f dir base ext : Str) (v : Val P)
    (hf : ∀ v, f ≠ '$' :: v) (hm : Means f (dir ++ base ++ '.' :: ext)) (hn : ∀ v, dir ++ base ++ '.' :: ext ≠ '$' :: v)
    (hdir : dir = [] ∨ ∃ d, dir = d ++ ['/']) (hb : base ≠ []) (hbs : '/' ∉ base) (he : '.' ∉ ext) (hes : '/' ∉ ext)
    (hdd : base ≠ ['.'] ∨ ext ≠ []) (hv : io.load w.fs (dir ++ base ++ '.' :: ext) = some v) :
    ∃ w', readCmd io pathStem w [f] = (w', .returned) ∧ w'.ws.retrieveAny base = some v ∧ OnlyVar w w' base := by
  have key : ∀ a : Str, (∀ v, a ≠ '$' :: v) → isVar a = false := by
    intro a ha
    cases a with
    | nil => rfl
    | cons c cs =>
      have : c ≠ '$' := fun e => ha cs (by rw [e])
      simp [isVar, this]
  have hs := means_iff.1 hm
  refine ⟨{ w with ws := w.ws.put base v }, ?_, ?_, onlyVar_put w base _⟩
  · have hl : loadArg io isMasterImage w f = .ok (some v) := by
      simp only [loadArg, key f hf, hs, key _ hn, hv]; rfl
    simp only [readCmd, hl, hs, pathStem_of dir base ext hdir hb hbs he hes hdd]
    simp [isVar, saveArg, varName]
  · simp [Workspace.retrieveAny_put]

/-- `read "img/lena.bmp"` stores `$lena`. -/
example : Means "\"img/lena.bmp\"".toList ("img/".toList ++ "lena".toList ++ '.' :: "bmp".toList) ∧
    (∃ d, "img/".toList = d ++ ['/']) ∧ pathStem "img/lena.bmp".toList = "lena".toList := by
  refine ⟨means_iff.2 (by decide +kernel), ⟨"img".toList, by decide +kernel⟩, by decide +kernel⟩

/-! ## C142 -/

theorem parseSizes_dec (dims : List Nat) (h : ∀ n ∈ dims, n < 2 ^ 64) :
    parseSizes (dims.map (Nat.toDigits 10)) = some dims := by
  induction dims with
  | nil => rfl
  | cons n ns ih =>
    have h1 : parseSize (Nat.toDigits 10 n) = some n := parseSize_toStr (h n (by simp))
    simp [parseSizes, h1, ih fun m hm => h m (by simp [hm])]

theorem filled_ok (v : ℚ) (dims : List Nat) (hfit : dims.prod < 2 ^ 64) (h0 : 0 < dims.prod) :
    filledImage v dims = some (.atom tyDouble (.image ⟨dims, List.replicate dims.prod v⟩)) := by
  unfold filledImage
  rw [prodW_of_lt hfit, ofData_ok (by simp) hfit h0]
  simp [Image.setAllValue]

theorem create_ok (io : FileIO Pay F) (w : World Pay F) (v : ℚ) (dims : List Nat) (out : Str)
    (hne : dims ≠ []) (hd : ∀ n ∈ dims, n < 2 ^ 64) (hfit : dims.prod < 2 ^ 64) (h0 : 0 < dims.prod) :
    createImage io (filledImage v) w (out :: dims.map (Nat.toDigits 10)) =
      saveArg io w out (.atom tyDouble (.image ⟨dims, List.replicate dims.prod v⟩)) := by
  cases dims with
  | nil => exact absurd rfl hne
  | cons n ns =>
    have hp := parseSizes_dec (n :: ns) hd
    simp only [List.map_cons] at hp ⊢
    simp only [createImage, hp, filled_ok v (n :: ns) hfit h0]

/-- The command `cmd` with output `$d` and the sizes `dims` stores an image of these sizes all of whose pixels are
`v`, and changes nothing else. -/
def Creates {F : Type} (cmd : Handler (World Pay F)) (v : ℚ) (dims : List Nat) : Prop :=
  ∀ (w : World Pay F) (d : Str),
    ∃ w' im, cmd w (('$' :: d) :: dims.map (Nat.toDigits 10)) = (w', .returned) ∧
      w'.ws.retrieveAny d = some (.atom (.image (.num .double)) (.image im)) ∧ OnlyVar w w' d ∧
      im.WF ∧ im.size = dims ∧ ∀ q ∈ im.data, q = v

/-- `zeros $d n₁ n₂ ...` and `ones $d n₁ n₂ ...` for any number of sizes whose product is positive and fits 64 bits.
Missing: products of 2^64 and more, see `C142_wrap_violation`. -/
theorem C142_create_partial (io : FileIO Pay F) (dims : List Nat) (hne : dims ≠ []) (hd : ∀ n ∈ dims, n < 2 ^ 64)
    (hfit : dims.prod < 2 ^ 64) (h0 : 0 < dims.prod) :
    Creates (zerosCmd io) 0 dims ∧ Creates (onesCmd io) 1 dims := by
  have key : ∀ v, Creates (createImage io (filledImage v)) v dims := by
    intro v w d
    refine ⟨{ w with ws := w.ws.put d (.atom tyDouble (.image ⟨dims, List.replicate dims.prod v⟩)) },
      ⟨dims, List.replicate dims.prod v⟩, ?_, ?_, onlyVar_put w d _,
      ⟨by simp, hfit, hd⟩, rfl, ?_⟩
    · rw [create_ok io w v dims _ hne hd hfit h0]
      simp [saveArg, isVar, varName]
    · simp [Workspace.retrieveAny_put]
      rfl
    · intro q hq
      exact (List.mem_replicate.1 hq).2
  exact ⟨key 0, key 1⟩

example : ([3, 4, 2] : List Nat).prod < 2 ^ 64 ∧ 0 < ([3, 4, 2] : List Nat).prod := by decide

/-- With a file as output the image is handed to the file writer and no variable changes; when the writer fails the
command fails and changes nothing. Missing: products of 2^64 and more, see `C142_wrap_violation`. -/
theorem C142_file_partial (io : FileIO Pay F) (w : World Pay F) (f name : Str) (dims : List Nat) (hne : dims ≠ [])
    (hd : ∀ n ∈ dims, n < 2 ^ 64) (hfit : dims.prod < 2 ^ 64) (h0 : 0 < dims.prod) (hf : ∀ v, f ≠ '$' :: v)
    (hm : Means f name) :
    (∀ fs', io.save w.fs name (.atom (.image (.num .double)) (.image ⟨dims, List.replicate dims.prod 0⟩)) = some fs' →
      zerosCmd io w (f :: dims.map (Nat.toDigits 10)) = ({ w with fs := fs' }, .returned)) ∧
    (io.save w.fs name (.atom (.image (.num .double)) (.image ⟨dims, List.replicate dims.prod 0⟩)) = none →
      zerosCmd io w (f :: dims.map (Nat.toDigits 10)) = (w, .threw)) ∧
    (∀ fs', io.save w.fs name (.atom (.image (.num .double)) (.image ⟨dims, List.replicate dims.prod 1⟩)) = some fs' →
      onesCmd io w (f :: dims.map (Nat.toDigits 10)) = ({ w with fs := fs' }, .returned)) ∧
    (io.save w.fs name (.atom (.image (.num .double)) (.image ⟨dims, List.replicate dims.prod 1⟩)) = none →
      onesCmd io w (f :: dims.map (Nat.toDigits 10)) = (w, .threw)) := by
  have key : isVar f = false := by
    cases f with
    | nil => rfl
    | cons c cs =>
      have : c ≠ '$' := fun e => hf cs (by rw [e])
      simp [isVar, this]
  have hs := means_iff.1 hm
  unfold zerosCmd onesCmd
  rw [create_ok io w 0 dims _ hne hd hfit h0, create_ok io w 1 dims _ hne hd hfit h0]
  have t : tyDouble = .image (.num .double) := rfl
  rw [t]
  refine ⟨fun fs' h => ?_, fun h => ?_, fun fs' h => ?_, fun h => ?_⟩ <;> simp [saveArg, key, hs, h]

example : Means "z.dbmp".toList "z.dbmp".toList := means_iff.2 (by decide +kernel)

/-- A size that is zero, no size at all, or a size argument that is no number: nothing is created or changed. -/
theorem C142_rejected (io : FileIO Pay F) (w : World Pay F) (out : Str) :
    (∀ dims : List Nat, (∀ n ∈ dims, n < 2 ^ 64) → 0 ∈ dims →
      zerosCmd io w (out :: dims.map (Nat.toDigits 10)) = (w, .threw) ∧
        onesCmd io w (out :: dims.map (Nat.toDigits 10)) = (w, .threw)) ∧
    (zerosCmd io w [out] = (w, .returned) ∧ onesCmd io w [out] = (w, .returned)) ∧
    (∀ args : List Str, (∃ a ∈ args, ∃ b, Means a b ∧ ∀ c, b.head? = some c → c.isDigit = false) →
      zerosCmd io w (out :: args) = (w, .threw) ∧ onesCmd io w (out :: args) = (w, .threw)) := by
  refine ⟨fun dims hd h0 => ?_, ⟨rfl, rfl⟩, fun args hb => ?_⟩
  · have hp : dims.prod = 0 := Nat.eq_zero_of_zero_dvd (List.dvd_prod h0)
    have hf : ∀ v, filledImage v dims = none := by
      intro v
      unfold filledImage
      rw [prodW_of_lt (by rw [hp]; norm_num), hp]
      rfl
    cases dims with
    | nil => simp at h0
    | cons n ns =>
      have hps := parseSizes_dec (n :: ns) hd
      simp only [List.map_cons] at hps ⊢
      simp [zerosCmd, onesCmd, createImage, hps, hf]
  · have hps : parseSizes args = none := by
      obtain ⟨a, ha, b, hm, hc⟩ := hb
      have h1 : parseSize a = none := by
        unfold parseSize
        rw [means_iff.1 hm]
        cases b with
        | nil => rfl
        | cons c cs => simp [hc c rfl]
      clear hm hc
      induction args with
      | nil => simp at ha
      | cons x xs ih =>
        rcases List.mem_cons.1 ha with rfl | h
        · simp [parseSizes, h1]
        · simp only [parseSizes, ih h]
          cases parseSize x <;> rfl
    cases args with
    | nil => obtain ⟨a, ha, _⟩ := hb; simp at ha
    | cons n ns => simp [zerosCmd, onesCmd, createImage, hps]

example : ∃ b, Means " x3".toList b ∧ ∀ c, b.head? = some c → c.isDigit = false :=
  ⟨"x3".toList, means_iff.2 (by decide +kernel), by decide +kernel⟩

/-- The number of pixels is computed modulo 2^64: `zeros $z 3 6148914691236517206` stores an image of that width and
height that has two pixels. -/
theorem C142_wrap_violation (io : FileIO Pay F) (w : World Pay F) :
    ∃ w' im, zerosCmd io w ["$z".toList, "3".toList, "6148914691236517206".toList] = (w', .returned) ∧
      w'.ws.retrieveAny ['z'] = some (.atom (.image (.num .double)) (.image im)) ∧
      im.size = [3, 6148914691236517206] ∧ im.data = [0, 0] := by
  have hp : parseSizes ["3".toList, "6148914691236517206".toList] = some [3, 6148914691236517206] := by
    decide +kernel
  have hw : Image.prodW [3, 6148914691236517206] = 2 := by decide +kernel
  have hf : filledImage 0 [3, 6148914691236517206] =
      some (.atom tyDouble (.image ⟨[3, 6148914691236517206], [0, 0]⟩)) := by
    simp [filledImage, hw, Image.ofData, Image.setAllValue, List.replicate]
  refine ⟨{ w with ws := w.ws.put ['z'] (.atom tyDouble (.image ⟨[3, 6148914691236517206], [0, 0]⟩)) }, ⟨[3, 6148914691236517206], [0, 0]⟩, ?_, ?_, rfl, rfl⟩
  · simp only [zerosCmd, createImage, hp, hf]
    exact rfl
  · simp [Workspace.retrieveAny_put]
    rfl

end TinyDIP.Props
