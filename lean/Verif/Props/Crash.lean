import Verif.Lemmas.Crash
import Verif.Lemmas.CutCsv
import Verif.Props.Io
import Verif.Props.Text

/-!
# Properties C192-C196: the program stops while it writes a picture
-/

namespace TinyDIP.Props

open TinyDIP TinyDIP.Cli Image Crash

/-! ## C192 writing over an old picture -/

/-- A BMP picture written to a name that can be opened, whatever was there before: `Torn` describes exactly
the files that can remain when the program stops during `bmp_write`, the content `bytes` being the one of the
finished call; and a call that returns leaves exactly the files of `bmpWrite`.
Missing: the old picture can be lost before the new one is there, see `C192_bmp_violation`. -/
theorem C192_bmp_partial (fs : Files) (name : List Char) (im : Image RGB) (w h : Nat) (f : Nat → Nat → RGB)
    (s : im.Shows w h f) (hw : bmpRow24 w < 2 ^ 31) (hh : h < 2 ^ 31)
    (hwr : fs.writable (name ++ ".bmp".toList) = true) :
    ∃ ops fs' bytes, bmpOps fs name im = .ok (ops, 0) ∧ bmpWrite fs name im = .ok (fs', 0) ∧
      fs'.content (name ++ ".bmp".toList) = some bytes ∧
      (∀ d, CanLeave fs.content ops d ↔ Torn fs.content (name ++ ".bmp".toList) bytes d) ∧
      (∀ d, Ends fs.content ops d ↔ d = fs'.content) := by
  have hext : ".bmp".toList = bmpExt := by decide
  rw [hext] at hwr ⊢
  rw [bmpRow24_eq] at hw
  obtain ⟨buf, e, -, -⟩ := bmpBytes_ok s hh hw
  obtain ⟨fs', e1, e2, e3, -⟩ := Files.put_writable hwr (bmpHeader (w * h * 3 + 54) w h ++ buf)
  obtain ⟨ops, o1, o2, o3⟩ := twoWrites_writable hwr (bmpHeader (w * h * 3 + 54) w h ++ buf)
  refine ⟨_, fs', _, by rw [bmpOps, e, Res.ok_bind, o1], by rw [bmpWrite, e, Res.ok_bind, e1], e2,
    fun d => ?_, fun d => ?_⟩
  · rw [canLeave_iff o2, o3]
  · rw [ends_iff o2, o3]
    exact ⟨fun h => disk_ext h.1 e3 (h.2.trans e2.symm), fun h => h ▸ ⟨e3, e2⟩⟩

example := C192_bmp_partial ⟨fun _ => some [1, 2, 3], fun _ => true⟩ "a".toList _ 3 2 _
  (picture_shows 3 2 fun x y => (⟨BitVec.ofNat 8 x, BitVec.ofNat 8 y, 7⟩ : RGB)) (by decide) (by decide) rfl

/-- Whatever picture is written over a file that is not empty: the program can stop in a state in which the
file holds neither the old nor the new content, and reading what it holds is undefined behaviour. -/
theorem C192_bmp_violation (fs : Files) (name : List Char) (im : Image RGB) (w h : Nat) (f : Nat → Nat → RGB)
    (s : im.Shows w h f) (hw : bmpRow24 w < 2 ^ 31) (hh : h < 2 ^ 31)
    (hwr : fs.writable (name ++ ".bmp".toList) = true) (old : List Byte) (hne : old ≠ [])
    (hold : fs.content (name ++ ".bmp".toList) = some old) :
    ∃ ops fs' d, bmpOps fs name im = .ok (ops, 0) ∧ bmpWrite fs name im = .ok (fs', 0) ∧
      CanLeave fs.content ops d ∧ d (name ++ ".bmp".toList) ≠ some old ∧
      d (name ++ ".bmp".toList) ≠ fs'.content (name ++ ".bmp".toList) ∧
      bmpRead { fs with content := d } name false = .ub := by
  have hext : ".bmp".toList = bmpExt := by decide
  rw [hext] at hwr hold ⊢
  rw [bmpRow24_eq] at hw
  obtain ⟨buf, e, -, -⟩ := bmpBytes_ok s hh hw
  obtain ⟨fs', e1, e2, e3, -⟩ := Files.put_writable hwr (bmpHeader (w * h * 3 + 54) w h ++ buf)
  obtain ⟨ops, o1, o2, o3⟩ := twoWrites_writable hwr (bmpHeader (w * h * 3 + 54) w h ++ buf)
  have hd : (Disk.empty fs.content (name ++ bmpExt)) (name ++ bmpExt) = some [] := by simp [Disk.empty]
  refine ⟨_, fs', Disk.empty fs.content (name ++ bmpExt), by rw [bmpOps, e, Res.ok_bind, o1],
    by rw [bmpWrite, e, Res.ok_bind, e1], ?_, ?_, ?_, ?_⟩
  · rw [canLeave_iff o2]
    exact ⟨fun n hn => by rw [Disk.empty, if_neg hn], Or.inr ⟨0, by rw [hd]; simp⟩⟩
  · rw [hd]; intro h; exact hne (Option.some.inj h).symm
  · rw [hd, e2]
    intro h
    have := congrArg List.length (Option.some.inj h)
    rw [List.length_append, bmpHeader_length] at this
    simp at this
    omega
  · unfold bmpRead
    rw [pathOf_false]
    simp only [hd]
    rw [bmpFileRead_short (by simp)]; rfl

example := C192_bmp_violation ⟨fun _ => some [1, 2, 3], fun _ => true⟩ "a".toList _ 3 2 _
  (picture_shows 3 2 fun x y => (⟨BitVec.ofNat 8 x, BitVec.ofNat 8 y, 7⟩ : RGB)) (by decide) (by decide) rfl
  [1, 2, 3] (by decide) rfl

/-- The same for pictures of doubles, whatever `malloc` returned.
Missing: as for `C192_bmp_partial`. -/
theorem C192_double_partial (fs : Files) (name : List Char) (im : Image (BitVec 64)) (w h : Nat)
    (f : Nat → Nat → BitVec 64) (s : im.Shows w h f) (hw : w + w % 8 < 2 ^ 31) (hh : h < 2 ^ 31)
    (junk : List (BitVec 64)) (hj : junk.length = (w + w % 8) * h)
    (hwr : fs.writable (name ++ ".dbmp".toList) = true) :
    ∃ ops fs' bytes, dblOps fs junk name im = .ok (ops, 0) ∧ dblWrite fs junk name im = .ok (fs', 0) ∧
      fs'.content (name ++ ".dbmp".toList) = some bytes ∧
      (∀ d, CanLeave fs.content ops d ↔ Torn fs.content (name ++ ".dbmp".toList) bytes d) ∧
      (∀ d, Ends fs.content ops d ↔ d = fs'.content) := by
  have hext : ".dbmp".toList = dbmpExt := by decide
  rw [hext] at hwr ⊢
  obtain ⟨buf, e, -⟩ := dblFile_ok s hh hw junk hj
  obtain ⟨fs', e1, e2, e3, -⟩ := Files.put_writable hwr (bmpHeader (w * h + 54) w h ++ buf.flatMap dblBytes)
  obtain ⟨ops, o1, o2, o3⟩ := twoWrites_writable hwr (bmpHeader (w * h + 54) w h ++ buf.flatMap dblBytes)
  refine ⟨_, fs', _, by rw [dblOps, e, Res.ok_bind, o1], by rw [dblWrite, e, Res.ok_bind, e1], e2,
    fun d => ?_, fun d => ?_⟩
  · rw [canLeave_iff o2, o3]
  · rw [ends_iff o2, o3]
    exact ⟨fun h => disk_ext h.1 e3 (h.2.trans e2.symm), fun h => h ▸ ⟨e3, e2⟩⟩

example := C192_double_partial ⟨fun _ => some [1, 2, 3], fun _ => true⟩ "a".toList _ 3 2 _
  (picture_shows 3 2 fun x y => BitVec.ofNat 64 (x + 10 * y)) (by decide) (by decide)
  (List.replicate 12 5) (by decide) rfl

/-- The same for HSV pictures. Missing: as for `C192_bmp_partial`. -/
theorem C192_hsv_partial (fs : Files) (name : List Char) (im : Image (Px3 (BitVec 64))) (w h : Nat)
    (f : Nat → Nat → Px3 (BitVec 64)) (s : im.Shows w h f) (hw : w * 3 + w % 8 < 2 ^ 31) (hh : h < 2 ^ 31)
    (junk : List (BitVec 64)) (hj : junk.length = (w * 3 + w % 8) * h)
    (hwr : fs.writable (name ++ ".hsv".toList) = true) :
    ∃ ops fs' bytes, hsvOps fs junk name im = .ok (ops, 0) ∧ hsvWrite fs junk name im = .ok (fs', 0) ∧
      fs'.content (name ++ ".hsv".toList) = some bytes ∧
      (∀ d, CanLeave fs.content ops d ↔ Torn fs.content (name ++ ".hsv".toList) bytes d) ∧
      (∀ d, Ends fs.content ops d ↔ d = fs'.content) := by
  have hext : ".hsv".toList = hsvExt := by decide
  rw [hext] at hwr ⊢
  obtain ⟨buf, e, -⟩ := hsvFile_ok s hh hw junk hj
  obtain ⟨fs', e1, e2, e3, -⟩ := Files.put_writable hwr (bmpHeader (w * h * 3 + 54) w h ++ buf.flatMap dblBytes)
  obtain ⟨ops, o1, o2, o3⟩ := twoWrites_writable hwr (bmpHeader (w * h * 3 + 54) w h ++ buf.flatMap dblBytes)
  refine ⟨_, fs', _, by rw [hsvOps, e, Res.ok_bind, o1], by rw [hsvWrite, e, Res.ok_bind, e1], e2,
    fun d => ?_, fun d => ?_⟩
  · rw [canLeave_iff o2, o3]
  · rw [ends_iff o2, o3]
    exact ⟨fun h => disk_ext h.1 e3 (h.2.trans e2.symm), fun h => h ▸ ⟨e3, e2⟩⟩

example := C192_hsv_partial ⟨fun _ => some [1, 2, 3], fun _ => true⟩ "a".toList _ 3 2 _
  (picture_shows 3 2 fun x y => (⟨BitVec.ofNat 64 x, BitVec.ofNat 64 y, 7⟩ : Px3 (BitVec 64))) (by decide) (by decide)
  (List.replicate 24 5) (by decide) rfl

/-- The same for the three text formats of `pnm::write`. Missing: as for `C192_bmp_partial`. -/
theorem C192_pnm_partial (d0 : Disk Char) (name : List Char) (im : Image RGB) (w h : Nat) (f : Nat → Nat → RGB)
    (s : im.Shows w h f) (magic : Str) (hm : magic = "P1".toList ∨ magic = "P2".toList ∨ magic = "P3".toList)
    (max : Int) :
    ∃ ops text, pnmOps true name im magic max = (ops, .ok ()) ∧ Text.pnmWrite im magic max = .ok text ∧
      (∀ d, CanLeave d0 ops d ↔ Torn d0 name text d) ∧ (∀ d, Ends d0 ops d ↔ Replaced d0 name text d) := by
  have e := Text.pnmWrite_eq s (magic := magic) hm max
  refine ⟨_, _, by rw [pnmOps, if_neg (by decide), e], e, fun d => ?_, fun d => ?_⟩
  · rw [canLeave_iff (.write _ _ .close)]; simp [rest]
  · rw [ends_iff (.write _ _ .close)]; simp [rest]

example := C192_pnm_partial (fun _ => some ['x']) "a".toList _ 3 2 _
  (picture_shows 3 2 fun x y => (⟨BitVec.ofNat 8 x, BitVec.ofNat 8 y, 7⟩ : RGB)) "P3".toList (by decide) 255

/-- `pnm::write` refuses an unknown magic number by an exception, but only after the file was emptied: the
old picture is lost whenever the call is over. -/
theorem C192_pnm_magic_violation (d0 : Disk Char) (name : List Char) (im : Image RGB) (magic : Str)
    (hm : magic ≠ "P1".toList ∧ magic ≠ "P2".toList ∧ magic ≠ "P3".toList) (max : Int) :
    ∃ ops, pnmOps true name im magic max = (ops, .throw .invalidArg) ∧
      ∀ d, Ends d0 ops d ↔ Replaced d0 name [] d := by
  have e : Text.pnmWrite im magic max = .throw .invalidArg := by
    unfold Text.pnmWrite
    exact if_pos hm
  refine ⟨_, by rw [pnmOps, if_neg (by decide), e], fun d => ?_⟩
  rw [ends_iff .close]; simp [rest]

example := C192_pnm_magic_violation (fun _ => some ['x']) "a".toList (picture 3 2 fun _ _ => (⟨1, 2, 3⟩ : RGB))
  "P6".toList (by decide) 255

/-- The same for CSV files, and the calls that fail before the file is opened (a picture that is not
two-dimensional, a name that cannot be opened) change no file. Missing: as for `C192_bmp_partial`. -/
theorem C192_csv_partial {α : Type} (d0 : Disk Char) (name : List Char) (fmt : α → Str)
    (sched : List Nat → List Nat) (hs : Text.Fair sched) :
    (∀ (im : Image α) (w h : Nat) (f : Nat → Nat → α), im.Shows w h f →
      ∃ ops text, csvOps true name sched fmt im = (ops, .ok ()) ∧ Text.csvWrite sched fmt im = .ok text ∧
        (∀ d, CanLeave d0 ops d ↔ Torn d0 name text d) ∧ (∀ d, Ends d0 ops d ↔ Replaced d0 name text d)) ∧
    (∀ (canOpen : Bool) (im : Image α), im.dim ≠ 2 ∨ canOpen = false →
      ∃ ops, csvOps canOpen name sched fmt im = (ops, .throw .runtime) ∧ ∀ d, CanLeave d0 ops d ↔ d = d0) := by
  refine ⟨fun im w h f s => ?_, fun canOpen im hc => ?_⟩
  · have e := Text.csvWrite_eq s fmt hs
    have hd : im.dim = 2 := s.dim
    refine ⟨_, _, by rw [csvOps, if_neg (by rw [hd]; decide), if_neg (by decide), e], e, fun d => ?_, fun d => ?_⟩
    · rw [canLeave_iff (.write _ _ .close)]; simp [rest]
    · rw [ends_iff (.write _ _ .close)]; simp [rest]
  · have e : csvOps canOpen name sched fmt im = ([], .throw .runtime) := by
      unfold csvOps
      by_cases hd : im.dim ≠ 2
      · rw [if_pos hd]
      · rw [if_neg hd, if_pos (by tauto)]
    refine ⟨_, e, fun d => ⟨?_, ?_⟩⟩
    · rintro ⟨q, hq, rfl⟩
      have : q = ⟨d0, none, []⟩ := by
        induction hq with
        | refl => rfl
        | step _ st ih => subst ih; cases st
      rw [this]
    · rintro rfl
      exact ⟨_, .refl, rfl⟩

example := (C192_csv_partial (fun _ => some ['x']) "a".toList Text.intStr List.reverse (fun l => l.reverse_perm)).1 _ 3 2 _
  (picture_shows 3 2 fun x y => 10 * (x : Int) - 100 * y)

example := (C192_csv_partial (fun _ => some ['x']) "a".toList Text.intStr id (fun l => .refl l)).2 true
  (⟨[2, 2, 1], [1, 2, 3, 4]⟩ : Image Int) (Or.inl (by decide))

theorem put_content {fs fs' : Files} {name : List Char} {b : List Byte} (h : fs.put name b = (fs', 0)) :
    fs'.content name = some b := by
  unfold Files.put at h
  split at h
  · cases h; simp
  · cases h

/-! ## C193 a 24-bit BMP file that was cut short -/

/-- A BMP file written for a picture and cut after at least 26 bytes (the size fields are there) is read as a
picture of the same size: every colour value whose byte was written is right, all others are 255 (white).
Missing: the loss is not reported, see `C193_bmp_violation`, and shorter files, see
`C193_bmp_header_violation`. -/
theorem C193_bmp_partial (fs fs' fs'' : Files) (name : List Char) (im : Image RGB) (w h : Nat)
    (f : Nat → Nat → RGB) (s : im.Shows w h f) (hw : 0 < w) (hh : 0 < h) (hsz : bmpRow24 w * h < 2 ^ 31)
    (hwrite : bmpWrite fs name im = .ok (fs', 0)) (k : Nat) (hk : 26 ≤ k)
    (hcut : fs''.content (name ++ ".bmp".toList) = (fs'.content (name ++ ".bmp".toList)).map (List.take k)) :
    ∃ out, bmpRead fs'' name false = .ok out ∧ out.Shows w h fun x y =>
      ⟨if 54 + y * bmpRow24 w + 3 * x + 2 < k then (f x y).c0 else 255,
        if 54 + y * bmpRow24 w + 3 * x + 1 < k then (f x y).c1 else 255,
        if 54 + y * bmpRow24 w + 3 * x < k then (f x y).c2 else 255⟩ := by
  have hext : ".bmp".toList = bmpExt := by decide
  rw [hext] at hcut
  simp only [bmpRow24_eq] at hsz ⊢
  have hrow : w * 3 + w % 4 ≤ (w * 3 + w % 4) * h := Nat.le_mul_of_pos_right _ hh
  have hcol : h ≤ (w * 3 + w % 4) * h := Nat.le_mul_of_pos_left _ (by omega)
  obtain ⟨buf, e, r, -⟩ := bmpBytes_ok s (by omega) (by omega)
  have hc : fs'.content (name ++ bmpExt) = some (bmpHeader (w * h * 3 + 54) w h ++ buf) := by
    rw [bmpWrite, e, Res.ok_bind] at hwrite
    exact put_content (Res.ok.inj hwrite)
  rw [hc, Option.map_some] at hcut
  have hr := bmpFileRead_cut (n := w * h * 3 + 54) (k := k) (by omega) (by omega) hsz r.1 hk
  have rw' : RawShows (worn buf (k - 54)) w h (w % 4) fun x y =>
      ⟨if 54 + y * (w * 3 + w % 4) + 3 * x + 2 < k then (f x y).c0 else 255,
        if 54 + y * (w * 3 + w % 4) + 3 * x + 1 < k then (f x y).c1 else 255,
        if 54 + y * (w * 3 + w % 4) + 3 * x < k then (f x y).c2 else 255⟩ := by
    refine ⟨by rw [← r.1]; simp [worn]; omega, fun x y c hx hy hc => ?_⟩
    have hlt := rawIdx_lt (fb := w % 4) (c := c) hx hy
    have hv := r.2 x y c hx hy hc
    rw [worn_get (by rw [r.1]; exact hlt), List.getD_eq_getElem?_getD, hv, Option.getD_some]
    rw [rawIdx_eq]
    have hc' : c = 0 ∨ c = 1 ∨ c = 2 := by omega
    rcases hc' with rfl | rfl | rfl
    · show some (if y * (w * 3 + w % 4) + (3 * x + (2 - 0)) < k - 54 then (f x y).c0 else 255) =
        some (if 54 + y * (w * 3 + w % 4) + 3 * x + 2 < k then (f x y).c0 else 255)
      exact congrArg some (if_congr (by generalize y * (w * 3 + w % 4) = a; omega) rfl rfl)
    · show some (if y * (w * 3 + w % 4) + (3 * x + (2 - 1)) < k - 54 then (f x y).c1 else 255) =
        some (if 54 + y * (w * 3 + w % 4) + 3 * x + 1 < k then (f x y).c1 else 255)
      exact congrArg some (if_congr (by generalize y * (w * 3 + w % 4) = a; omega) rfl rfl)
    · show some (if y * (w * 3 + w % 4) + (3 * x + (2 - 2)) < k - 54 then (f x y).c2 else 255) =
        some (if 54 + y * (w * 3 + w % 4) + 3 * x < k then (f x y).c2 else 255)
      exact congrArg some (if_congr (by generalize y * (w * 3 + w % 4) = a; omega) rfl rfl)
  obtain ⟨out, eo, so⟩ := rawToImage_ok (by omega) (by omega) (by have := s.fits; omega) rw'
  refine ⟨out, ?_, so⟩
  unfold bmpRead
  rw [pathOf_false, hcut]
  simp only [hr, Res.ok_bind, eo]

/-- A picture and a cut file for this theorem. -/
example : ∃ fs' fs'' out, bmpWrite ⟨fun _ => none, fun _ => true⟩ "a".toList
      (picture 3 2 fun x y => (⟨BitVec.ofNat 8 x, BitVec.ofNat 8 y, 7⟩ : RGB)) = .ok (fs', 0) ∧
    fs''.content ("a".toList ++ ".bmp".toList) = (fs'.content ("a".toList ++ ".bmp".toList)).map (List.take 60) ∧
    bmpRead fs'' "a".toList false = .ok out := by
  have s := picture_shows 3 2 fun x y => (⟨BitVec.ofNat 8 x, BitVec.ofNat 8 y, 7⟩ : RGB)
  obtain ⟨_, fs', b, -, h2, -, -, -⟩ := C192_bmp_partial ⟨fun _ => none, fun _ => true⟩ "a".toList _ 3 2 _ s
    (by decide) (by decide) rfl
  obtain ⟨out, h3, -⟩ := C193_bmp_partial _ fs' ⟨fun n => (fs'.content n).map (List.take 60), fs'.writable⟩ _ _ 3 2 _ s
    (by decide) (by decide) (by decide) h2 60 (by decide) rfl
  exact ⟨fs', _, out, h2, rfl, h3⟩

/-- Cut before the height field, reading is undefined behaviour (an array that was never filled is read). -/
theorem C193_bmp_header_violation (fs : Files) (name : List Char) (bytes : List Byte)
    (hc : fs.content (name ++ ".bmp".toList) = some bytes) (hk : bytes.length < 26) :
    bmpRead fs name false = .ub := by
  have hext : ".bmp".toList = bmpExt := by decide
  rw [hext] at hc
  unfold bmpRead
  rw [pathOf_false, hc]
  simp only [bmpFileRead_short hk]; rfl

example := C193_bmp_header_violation ⟨fun _ => some [66, 77, 0, 0], fun _ => true⟩ "a".toList [66, 77, 0, 0] rfl
  (by decide)

/-- Every picture with a pixel that is not white: the program can stop while writing it such that the file left
is read without an error as another picture. -/
theorem C193_bmp_violation (fs : Files) (name : List Char) (im : Image RGB) (w h : Nat)
    (f : Nat → Nat → RGB) (s : im.Shows w h f) (hw : 0 < w) (hh : 0 < h) (hsz : bmpRow24 w * h < 2 ^ 31)
    (hwr : fs.writable (name ++ ".bmp".toList) = true)
    (x y : Nat) (hx : x < w) (hy : y < h) (hp : f x y ≠ ⟨255, 255, 255⟩) :
    ∃ ops d out, bmpOps fs name im = .ok (ops, 0) ∧ CanLeave fs.content ops d ∧
      bmpRead { fs with content := d } name false = .ok out ∧ out ≠ im := by
  have hrow : bmpRow24 w ≤ bmpRow24 w * h := Nat.le_mul_of_pos_right _ hh
  have hcol : h ≤ bmpRow24 w * h := Nat.le_mul_of_pos_left _ (by rw [bmpRow24_eq]; omega)
  obtain ⟨ops, fs', bytes, h1, h2, h3, h4, -⟩ := C192_bmp_partial fs name im w h f s (by omega) (by omega) hwr
  have ht : Torn fs.content (name ++ ".bmp".toList) bytes
      (fun n => if n = name ++ ".bmp".toList then some (bytes.take 54) else fs.content n) :=
    ⟨fun n hn => if_neg hn, Or.inr ⟨54, if_pos rfl⟩⟩
  obtain ⟨out, eo, so⟩ := C193_bmp_partial fs fs' 
    { fs with content := fun n => if n = name ++ ".bmp".toList then some (bytes.take 54) else fs.content n }
    name im w h f s hw hh hsz h2 54 (by omega) (by rw [h3]; exact if_pos rfl)
  refine ⟨ops, _, out, h1, (h4 _).2 ht, eo, fun e => hp ?_⟩
  subst e
  have := (s.at2u hx hy).symm.trans (so.at2u hx hy)
  rw [Res.ok.injEq] at this
  rw [this, if_neg (by omega), if_neg (by omega), if_neg (by omega)]

example := C193_bmp_violation ⟨fun _ => none, fun _ => true⟩ "a".toList _ 3 2 _
  (picture_shows 3 2 fun x y => (⟨BitVec.ofNat 8 x, BitVec.ofNat 8 y, 7⟩ : RGB)) (by decide) (by decide) (by decide) rfl
  1 1 (by decide) (by decide) (by decide)

/-! ## C194 a file of doubles that was cut short -/

theorem last_sample {w fb h x y : Nat} (hx : x < w) (hy : y < h) :
    y * w + x + y * fb < (w + fb) * (h - 1) + w := by
  have h1 : (w + fb) * y ≤ (w + fb) * (h - 1) := Nat.mul_le_mul_left _ (by omega)
  have h2 : (w + fb) * y = y * w + y * fb := by ring
  omega

/-- A file of doubles, written for a picture with less than 2^31 stored samples and cut somewhere after the last
sample of the last row, gives the whole picture.
Missing: shorter files, see `C194_double_violation`. -/
theorem C194_double_partial (fs fs' fs'' : Files) (name : List Char) (im : Image (BitVec 64)) (w h : Nat)
    (f : Nat → Nat → BitVec 64) (s : im.Shows w h f) (hw : 0 < w) (hh : 0 < h)
    (hsz : (w + w % 8) * h < 2 ^ 31) (junk : List (BitVec 64)) (hj : junk.length = (w + w % 8) * h)
    (hwrite : dblWrite fs junk name im = .ok (fs', 0)) (k : Nat)
    (hcut : fs''.content (name ++ ".dbmp".toList) = (fs'.content (name ++ ".dbmp".toList)).map (List.take k))
    (hk : 54 + 8 * ((w + w % 8) * (h - 1) + w) ≤ k) : dblRead fs'' name false = .ok im := by
  have hext : ".dbmp".toList = dbmpExt := by decide
  rw [hext] at hcut
  have hrow : w + w % 8 ≤ (w + w % 8) * h := Nat.le_mul_of_pos_right _ hh
  have hcol : h ≤ (w + w % 8) * h := Nat.le_mul_of_pos_left _ (by omega)
  have hwh : w * h ≤ (w + w % 8) * h := Nat.mul_le_mul_right _ (by omega)
  obtain ⟨buf, e, r⟩ := dblFile_ok s (by omega) (by omega) junk hj
  have hc : fs'.content (name ++ dbmpExt) = some (bmpHeader (w * h + 54) w h ++ buf.flatMap dblBytes) := by
    rw [dblWrite, e, Res.ok_bind] at hwrite
    exact put_content (Res.ok.inj hwrite)
  rw [hc, Option.map_some] at hcut
  rw [dblRead_cut (ext := false) hcut r (by omega) (by omega) (by omega) (by omega) (by omega)]
  have s0 := ofInts_shows (0 : BitVec 64) (w := w) (h := h) (by omega) (by omega) (by omega)
  obtain ⟨out, eo, so⟩ := pixFor_fill (iterYX w h) (fun x _ => x) (fun _ y => y) f (fun out x y => do
      let v ← vget (buf.take ((k - 54) / 8)) (y * w + x + y * (w % 8))
      out.set2 x y v) s0 (fun x y hxy im g sg => by
        obtain ⟨hx, hy⟩ : x < w ∧ y < h := mem_iterYX.1 hxy
        have hl := last_sample (fb := w % 8) hx hy
        have hv : vget (buf.take ((k - 54) / 8)) (y * w + x + y * (w % 8)) = .ok (f x y) := by
          unfold vget
          rw [List.getElem?_take, if_pos (by omega), r.2 x y hx hy]
        rw [hv, Res.ok_bind]
        exact sg.set2 hx hy _)
    (fun a b ha hb => ⟨a, b, mem_iterYX.2 ⟨ha, hb⟩, rfl, rfl⟩)
  rw [eo, so.ext s fun _ _ _ _ => rfl]

/-- Cut before the end of the last sample of the last row, reading is undefined behaviour: memory that was never
filled is read. -/
theorem C194_double_violation (fs fs' fs'' : Files) (name : List Char) (im : Image (BitVec 64)) (w h : Nat)
    (f : Nat → Nat → BitVec 64) (s : im.Shows w h f) (hw : 0 < w) (hh : 0 < h)
    (hsz : (w + w % 8) * h < 2 ^ 31) (junk : List (BitVec 64)) (hj : junk.length = (w + w % 8) * h)
    (hwrite : dblWrite fs junk name im = .ok (fs', 0)) (k : Nat)
    (hcut : fs''.content (name ++ ".dbmp".toList) = (fs'.content (name ++ ".dbmp".toList)).map (List.take k))
    (hk : k < 54 + 8 * ((w + w % 8) * (h - 1) + w)) : dblRead fs'' name false = .ub := by
  have hext : ".dbmp".toList = dbmpExt := by decide
  rw [hext] at hcut
  have hrow : w + w % 8 ≤ (w + w % 8) * h := Nat.le_mul_of_pos_right _ hh
  have hcol : h ≤ (w + w % 8) * h := Nat.le_mul_of_pos_left _ (by omega)
  have hwh : w * h ≤ (w + w % 8) * h := Nat.mul_le_mul_right _ (by omega)
  obtain ⟨buf, e, r⟩ := dblFile_ok s (by omega) (by omega) junk hj
  have hc : fs'.content (name ++ dbmpExt) = some (bmpHeader (w * h + 54) w h ++ buf.flatMap dblBytes) := by
    rw [dblWrite, e, Res.ok_bind] at hwrite
    exact put_content (Res.ok.inj hwrite)
  rw [hc, Option.map_some] at hcut
  by_cases h26 : 26 ≤ k
  · rw [dblRead_cut (ext := false) hcut r (by omega) (by omega) (by omega) (by omega) h26]
    have s0 := ofInts_shows (0 : BitVec 64) (w := w) (h := h) (by omega) (by omega) (by omega)
    unfold pixFor
    refine loop_ub _ _ (w - 1, h - 1) (mem_iterYX.2 ⟨by omega, by omega⟩) (fun i => ∃ g, i.Shows w h g)
      (fun i => ?_) (fun i c hi hc => ?_) _ ⟨_, s0⟩
    · have hidx : (h - 1) * w + (w - 1) + (h - 1) * (w % 8) = (w + w % 8) * (h - 1) + w - 1 := by
        have : (w + w % 8) * (h - 1) = (h - 1) * w + (h - 1) * (w % 8) := by ring
        omega
      simp only
      rw [hidx]
      unfold vget
      rw [List.getElem?_take, if_neg (by omega)]; rfl
    · obtain ⟨hx, hy⟩ : c.1 < w ∧ c.2 < h := mem_iterYX.1 hc
      obtain ⟨g, sg⟩ := hi
      rcases vget_cases (buf.take ((k - 54) / 8)) (c.2 * w + c.1 + c.2 * (w % 8)) with ⟨v, e⟩ | e
      · obtain ⟨i', e', s'⟩ := sg.set2 hx hy v
        exact Or.inr ⟨i', by simp only [e, Res.ok_bind]; exact e', _, s'⟩
      · left; simp only [e]; rfl
  · unfold dblRead
    rw [pathOf_false, hcut]
    simp only
    rw [le32At_short (k := 22) (by simp; omega)]
    rcases le32At_cases _ 18 with ⟨a, e⟩ | e <;> rw [e] <;> rfl

/-- A picture and two cut files for these theorems. -/
example : ∃ fs' fs1 fs2, dblWrite ⟨fun _ => none, fun _ => true⟩ (List.replicate 12 5) "a".toList
      (picture 3 2 fun x y => BitVec.ofNat 64 (x + 10 * y)) = .ok (fs', 0) ∧
    dblRead fs1 "a".toList false = .ok (picture 3 2 fun x y => BitVec.ofNat 64 (x + 10 * y)) ∧
    dblRead fs2 "a".toList false = .ub := by
  have s := picture_shows 3 2 fun x y => BitVec.ofNat 64 (x + 10 * y)
  obtain ⟨_, fs', b, -, h2, -, -, -⟩ := C192_double_partial ⟨fun _ => none, fun _ => true⟩ "a".toList _ 3 2 _ s
    (by decide) (by decide) (List.replicate 12 5) (by decide) rfl
  exact ⟨fs', _, _, h2,
    C194_double_partial _ fs' ⟨fun n => (fs'.content n).map (List.take 126), fs'.writable⟩ _ _ 3 2 _ s
      (by decide) (by decide) (by decide) _ (by decide) h2 126 rfl (by decide),
    C194_double_violation _ fs' ⟨fun n => (fs'.content n).map (List.take 100), fs'.writable⟩ _ _ 3 2 _ s
      (by decide) (by decide) (by decide) _ (by decide) h2 100 rfl (by decide)⟩

theorem last_sample3 {w fb h x y c : Nat} (hx : x < w) (hy : y < h) :
    rawIdx w fb x y c < (w * 3 + fb) * (h - 1) + w * 3 := by
  rw [rawIdx_eq]
  have h1 : (w * 3 + fb) * y ≤ (w * 3 + fb) * (h - 1) := Nat.mul_le_mul_left _ (by omega)
  have h2 : (w * 3 + fb) * y = y * (w * 3 + fb) := by ring
  omega

/-- The same for HSV files. Missing: shorter files, see `C194_hsv_violation`. -/
theorem C194_hsv_partial (fs fs' fs'' : Files) (name : List Char) (im : Image (Px3 (BitVec 64))) (w h : Nat)
    (f : Nat → Nat → Px3 (BitVec 64)) (s : im.Shows w h f) (hw : 0 < w) (hh : 0 < h)
    (hsz : (w * 3 + w % 8) * h < 2 ^ 31) (junk : List (BitVec 64)) (hj : junk.length = (w * 3 + w % 8) * h)
    (hwrite : hsvWrite fs junk name im = .ok (fs', 0)) (k : Nat)
    (hcut : fs''.content (name ++ ".hsv".toList) = (fs'.content (name ++ ".hsv".toList)).map (List.take k))
    (hk : 54 + 8 * ((w * 3 + w % 8) * (h - 1) + w * 3) ≤ k) : hsvRead fs'' name false = .ok im := by
  have hext : ".hsv".toList = hsvExt := by decide
  rw [hext] at hcut
  have hrow : w * 3 + w % 8 ≤ (w * 3 + w % 8) * h := Nat.le_mul_of_pos_right _ hh
  have hcol : h ≤ (w * 3 + w % 8) * h := Nat.le_mul_of_pos_left _ (by omega)
  have hwh : w * h * 3 ≤ (w * 3 + w % 8) * h := by
    rw [show w * h * 3 = w * 3 * h from by ring]; exact Nat.mul_le_mul_right _ (by omega)
  obtain ⟨buf, e, r⟩ := hsvFile_ok s (by omega) (by omega) junk hj
  have hc : fs'.content (name ++ hsvExt) = some (bmpHeader (w * h * 3 + 54) w h ++ buf.flatMap dblBytes) := by
    rw [hsvWrite, e, Res.ok_bind] at hwrite
    exact put_content (Res.ok.inj hwrite)
  rw [hc, Option.map_some] at hcut
  rw [hsvRead_cut (ext := false) hcut r (by omega) (by omega) (by omega) (by omega) (by omega)]
  have s0 := ofInts_shows (⟨0, 0, 0⟩ : Px3 (BitVec 64)) (w := w) (h := h) (by omega) (by omega) (by omega)
  obtain ⟨out, eo, so⟩ := pixFor_fill (iterYX w h) (fun x _ => x) (fun _ y => y) f (fun out x y => do
      let p ← getPx3 w (w % 8) (buf.take ((k - 54) / 8)) x y
      out.set2 x y p) s0 (fun x y hxy im g sg => by
        obtain ⟨hx, hy⟩ : x < w ∧ y < h := mem_iterYX.1 hxy
        have hv : ∀ c, c < 3 → vget (buf.take ((k - 54) / 8)) (rawIdx w (w % 8) x y c) = .ok ((f x y).ch c) := by
          intro c hc
          have hl := last_sample3 (fb := w % 8) (c := c) hx hy
          unfold vget
          rw [List.getElem?_take, if_pos (by omega), r.2 x y c hx hy hc]
        have : getPx3 w (w % 8) (buf.take ((k - 54) / 8)) x y = .ok (f x y) := by
          unfold getPx3
          rw [hv 0 (by omega), hv 1 (by omega), hv 2 (by omega)]; rfl
        rw [this, Res.ok_bind]
        exact sg.set2 hx hy _)
    (fun a b ha hb => ⟨a, b, mem_iterYX.2 ⟨ha, hb⟩, rfl, rfl⟩)
  rw [eo, so.ext s fun _ _ _ _ => rfl]

/-- The same for HSV files cut earlier. -/
theorem C194_hsv_violation (fs fs' fs'' : Files) (name : List Char) (im : Image (Px3 (BitVec 64))) (w h : Nat)
    (f : Nat → Nat → Px3 (BitVec 64)) (s : im.Shows w h f) (hw : 0 < w) (hh : 0 < h)
    (hsz : (w * 3 + w % 8) * h < 2 ^ 31) (junk : List (BitVec 64)) (hj : junk.length = (w * 3 + w % 8) * h)
    (hwrite : hsvWrite fs junk name im = .ok (fs', 0)) (k : Nat)
    (hcut : fs''.content (name ++ ".hsv".toList) = (fs'.content (name ++ ".hsv".toList)).map (List.take k))
    (hk : k < 54 + 8 * ((w * 3 + w % 8) * (h - 1) + w * 3)) : hsvRead fs'' name false = .ub := by
  have hext : ".hsv".toList = hsvExt := by decide
  rw [hext] at hcut
  have hrow : w * 3 + w % 8 ≤ (w * 3 + w % 8) * h := Nat.le_mul_of_pos_right _ hh
  have hcol : h ≤ (w * 3 + w % 8) * h := Nat.le_mul_of_pos_left _ (by omega)
  have hwh : w * h * 3 ≤ (w * 3 + w % 8) * h := by
    rw [show w * h * 3 = w * 3 * h from by ring]; exact Nat.mul_le_mul_right _ (by omega)
  obtain ⟨buf, e, r⟩ := hsvFile_ok s (by omega) (by omega) junk hj
  have hc : fs'.content (name ++ hsvExt) = some (bmpHeader (w * h * 3 + 54) w h ++ buf.flatMap dblBytes) := by
    rw [hsvWrite, e, Res.ok_bind] at hwrite
    exact put_content (Res.ok.inj hwrite)
  rw [hc, Option.map_some] at hcut
  have vc := vget_cases (buf.take ((k - 54) / 8))
  by_cases h26 : 26 ≤ k
  · rw [hsvRead_cut (ext := false) hcut r (by omega) (by omega) (by omega) (by omega) h26]
    have s0 := ofInts_shows (⟨0, 0, 0⟩ : Px3 (BitVec 64)) (w := w) (h := h) (by omega) (by omega) (by omega)
    unfold pixFor
    refine loop_ub _ _ (w - 1, h - 1) (mem_iterYX.2 ⟨by omega, by omega⟩) (fun i => ∃ g, i.Shows w h g)
      (fun i => ?_) (fun i c hi hc => ?_) _ ⟨_, s0⟩
    · have hidx : rawIdx w (w % 8) (w - 1) (h - 1) 0 = (w * 3 + w % 8) * (h - 1) + w * 3 - 1 := by
        rw [rawIdx_eq]
        have : (w * 3 + w % 8) * (h - 1) = (h - 1) * (w * 3 + w % 8) := by ring
        omega
      have : getPx3 w (w % 8) (buf.take ((k - 54) / 8)) (w - 1) (h - 1) = .ub := by
        unfold getPx3
        rw [hidx]
        have : vget (buf.take ((k - 54) / 8)) ((w * 3 + w % 8) * (h - 1) + w * 3 - 1) = .ub := by
          unfold vget
          rw [List.getElem?_take, if_neg (by omega)]
        rw [this]; rfl
      simp only [this]; rfl
    · obtain ⟨hx, hy⟩ : c.1 < w ∧ c.2 < h := mem_iterYX.1 hc
      obtain ⟨g, sg⟩ := hi
      have : getPx3 w (w % 8) (buf.take ((k - 54) / 8)) c.1 c.2 = .ub ∨
          ∃ v, getPx3 w (w % 8) (buf.take ((k - 54) / 8)) c.1 c.2 = .ok v := by
        unfold getPx3
        rcases vc (rawIdx w (w % 8) c.1 c.2 0) with ⟨v0, e⟩ | e <;> rw [e]
        · rcases vc (rawIdx w (w % 8) c.1 c.2 1) with ⟨v1, e⟩ | e <;> rw [e]
          · rcases vc (rawIdx w (w % 8) c.1 c.2 2) with ⟨v2, e⟩ | e <;> rw [e]
            · exact Or.inr ⟨_, rfl⟩
            · exact Or.inl rfl
          · exact Or.inl rfl
        · exact Or.inl rfl
      rcases this with e | ⟨v, e⟩
      · left; simp only [e]; rfl
      · obtain ⟨i', e', s'⟩ := sg.set2 hx hy v
        exact Or.inr ⟨i', by simp only [e, Res.ok_bind]; exact e', _, s'⟩
  · unfold hsvRead
    rw [pathOf_false, hcut]
    simp only
    rw [le32At_short (k := 22) (by simp; omega)]
    rcases le32At_cases _ 18 with ⟨a, e⟩ | e <;> rw [e] <;> rfl

/-- A picture and two cut files for these theorems. -/
example : ∃ fs' fs1 fs2, hsvWrite ⟨fun _ => none, fun _ => true⟩ (List.replicate 24 5) "a".toList
      (picture 3 2 fun x y => (⟨BitVec.ofNat 64 x, BitVec.ofNat 64 y, 7⟩ : Px3 (BitVec 64))) = .ok (fs', 0) ∧
    hsvRead fs1 "a".toList false =
      .ok (picture 3 2 fun x y => (⟨BitVec.ofNat 64 x, BitVec.ofNat 64 y, 7⟩ : Px3 (BitVec 64))) ∧
    hsvRead fs2 "a".toList false = .ub := by
  have s := picture_shows 3 2 fun x y => (⟨BitVec.ofNat 64 x, BitVec.ofNat 64 y, 7⟩ : Px3 (BitVec 64))
  obtain ⟨_, fs', b, -, h2, -, -, -⟩ := C192_hsv_partial ⟨fun _ => none, fun _ => true⟩ "a".toList _ 3 2 _ s
    (by decide) (by decide) (List.replicate 24 5) (by decide) rfl
  exact ⟨fs', _, _, h2,
    C194_hsv_partial _ fs' ⟨fun n => (fs'.content n).map (List.take 222), fs'.writable⟩ _ _ 3 2 _ s
      (by decide) (by decide) (by decide) _ (by decide) h2 222 rfl (by decide),
    C194_hsv_violation _ fs' ⟨fun n => (fs'.content n).map (List.take 100), fs'.writable⟩ _ _ 3 2 _ s
      (by decide) (by decide) (by decide) _ (by decide) h2 100 rfl (by decide)⟩

/-! ## C195 a cut PNM file -/

section
open TinyDIP.Text

/-- A PPM file of a picture, cut after `k` characters. If only the last line feed is missing the picture is read
exactly. If any digit before the last number is missing the reader refuses the file. In any case the file is
refused or the picture is right but for the last channel of one corner pixel, which may be too small.
Missing: a cut inside the last number is not noticed, see `C195_ppm_violation`. -/
theorem C195_ppm_partial (im : Image RGB) (w h : Nat) (f : Nat → Nat → RGB) (s : im.Shows w h f)
    (hw : 0 < w) (hh : 0 < h) (hmem : w * h * 3 < 2 ^ 64) (sched : List Nat → List Nat) (hs : Fair sched)
    (file : List Char) (hfile : pnmWrite im "P3".toList 255 = .ok file) (k : Nat) :
    (file.length ≤ k + 1 → pnmRead sched (some (file.take k)) 8 = .ok im) ∧
    (k + 1 + (Nat.toDigits 10 (f (w - 1) 0).c2.toNat).length ≤ file.length →
      ∃ e, pnmRead sched (some (file.take k)) 8 = .throw e) ∧
    ((∃ e, pnmRead sched (some (file.take k)) 8 = .throw e) ∨
      ∃ out v, pnmRead sched (some (file.take k)) 8 = .ok out ∧ v ≤ (f (w - 1) 0).c2.toNat ∧
        out.Shows w h fun x y =>
          if x = w - 1 ∧ y = 0 then ⟨(f x y).c0, (f x y).c1, BitVec.ofNat 8 v⟩ else f x y) := by
  have e3 : "P3".toList = sP3 := by decide
  have hm : sP3 = sP1 ∨ sP3 = sP2 ∨ sP3 = sP3 := Or.inr (Or.inr rfl)
  have hb := (f (w - 1) 0).c2.isLt
  obtain ⟨file0, h1, h2⟩ := C38_ppm_round_trip im w h f s hmem sched hs
  rw [e3, pnmWrite_flat s hm] at h1
  rw [e3, pnmWrite_flat s hm] at hfile
  obtain rfl := Res.ok.inj h1
  obtain rfl := Res.ok.inj hfile
  have hv : pixVals sP3 (f (w - 1) 0) =
      [(f (w - 1) 0).c0.toNat, (f (w - 1) 0).c1.toNat] ++ [(f (w - 1) 0).c2.toNat] := rfl
  have hc := pnm_cut (sched := sched) hm hw hh s.w_lt s.h_lt hmem hv k
  refine ⟨fun hk => (pnm_end hm k hk).trans h2, fun hk => ?_, ?_⟩
  · rcases hc with hc | ⟨hc, -⟩
    · exact hc
    · exact absurd hc (by unfold toStr; omega)
  · refine hc.imp_right fun ⟨_, m, _, hle, hr⟩ => ?_
    obtain ⟨im', _, s'⟩ := s.set2 (x := w - 1) (y := 0) (by omega) hh
      ⟨(f (w - 1) 0).c0, (f (w - 1) 0).c1, BitVec.ofNat 8 m⟩
    have hr' := hr ⟨(f (w - 1) 0).c0, (f (w - 1) 0).c1, BitVec.ofNat 8 m⟩ (by
      show [_, _, (BitVec.ofNat 8 m).toNat] = [_, _, m]
      rw [BitVec.toNat_ofNat, Nat.mod_eq_of_lt (by omega)])
    obtain ⟨file0, h1, h2'⟩ := C38_ppm_round_trip im' w h _ s' hmem sched hs
    rw [e3, pnmWrite_flat s' hm] at h1
    obtain rfl := Res.ok.inj h1
    refine ⟨im', m, hr'.trans h2', hle, s'.congr fun x y _ _ => ?_⟩
    unfold updPx
    by_cases hxy : x = w - 1 ∧ y = 0
    · rw [if_pos hxy, if_pos hxy, hxy.1, hxy.2]
    · rw [if_neg hxy, if_neg hxy]

example (file : List Char) := C195_ppm_partial _ 3 2 _
  (picture_shows 3 2 fun x y => (⟨BitVec.ofNat 8 x, BitVec.ofNat 8 y, 200⟩ : RGB)) (by decide) (by decide)
  (by decide) List.reverse (fun l => l.reverse_perm) file

example : ∃ file, pnmWrite (picture 3 2 fun x y => (⟨BitVec.ofNat 8 x, BitVec.ofNat 8 y, 200⟩ : RGB))
    "P3".toList 255 = .ok file :=
  ⟨_, by rw [show "P3".toList = sP3 by decide]; exact pnmWrite_flat (picture_shows 3 2 _) (Or.inr (Or.inr rfl))⟩

/-- The same for a PGM file: refused, or every grey value right but the one of one corner pixel, which may be too
small. Missing: a cut inside the last number is not noticed, as for PPM. -/
theorem C195_pgm_partial (im : Image RGB) (w h : Nat) (f : Nat → Nat → RGB) (s : im.Shows w h f)
    (hw : 0 < w) (hh : 0 < h) (hmem : w * h * 3 < 2 ^ 64) (sched : List Nat → List Nat) (hs : Fair sched)
    (file : List Char) (hfile : pnmWrite im "P2".toList 255 = .ok file) (k : Nat) :
    (file.length ≤ k + 1 → ∃ out, pnmRead sched (some (file.take k)) 8 = .ok out ∧
      out.Shows w h fun x y => ⟨(f x y).c0, (f x y).c0, (f x y).c0⟩) ∧
    (k + 1 + (Nat.toDigits 10 (f (w - 1) 0).c0.toNat).length ≤ file.length →
      ∃ e, pnmRead sched (some (file.take k)) 8 = .throw e) ∧
    ((∃ e, pnmRead sched (some (file.take k)) 8 = .throw e) ∨
      ∃ out v, pnmRead sched (some (file.take k)) 8 = .ok out ∧ v ≤ (f (w - 1) 0).c0.toNat ∧
        out.Shows w h fun x y =>
          if x = w - 1 ∧ y = 0 then ⟨BitVec.ofNat 8 v, BitVec.ofNat 8 v, BitVec.ofNat 8 v⟩
          else ⟨(f x y).c0, (f x y).c0, (f x y).c0⟩) := by
  have e2 : "P2".toList = sP2 := by decide
  have hm : sP2 = sP1 ∨ sP2 = sP2 ∨ sP2 = sP3 := Or.inr (Or.inl rfl)
  have hb := (f (w - 1) 0).c0.isLt
  obtain ⟨file0, out0, h1, h2, so⟩ := C38_pgm_round_trip im w h f s sched hs
  rw [e2, pnmWrite_flat s hm] at h1
  rw [e2, pnmWrite_flat s hm] at hfile
  obtain rfl := Res.ok.inj h1
  obtain rfl := Res.ok.inj hfile
  have hv : pixVals sP2 (f (w - 1) 0) = [] ++ [(f (w - 1) 0).c0.toNat] := rfl
  have hc := pnm_cut (sched := sched) hm hw hh s.w_lt s.h_lt hmem hv k
  refine ⟨fun hk => ⟨out0, (pnm_end hm k hk).trans h2, so⟩, fun hk => ?_, ?_⟩
  · rcases hc with hc | ⟨hc, -⟩
    · exact hc
    · exact absurd hc (by unfold toStr; omega)
  · refine hc.imp_right fun ⟨_, m, _, hle, hr⟩ => ?_
    obtain ⟨im', _, s'⟩ := s.set2 (x := w - 1) (y := 0) (by omega) hh ⟨BitVec.ofNat 8 m, 0, 0⟩
    have hr' := hr ⟨BitVec.ofNat 8 m, 0, 0⟩ (by
      show [(BitVec.ofNat 8 m).toNat] = [m]
      rw [BitVec.toNat_ofNat, Nat.mod_eq_of_lt (by omega)])
    obtain ⟨file0, out, h1, h2', so'⟩ := C38_pgm_round_trip im' w h _ s' sched hs
    rw [e2, pnmWrite_flat s' hm] at h1
    obtain rfl := Res.ok.inj h1
    refine ⟨out, m, hr'.trans h2', hle, so'.congr fun x y _ _ => ?_⟩
    unfold updPx
    by_cases hxy : x = w - 1 ∧ y = 0
    · rw [if_pos hxy, if_pos hxy]
    · rw [if_neg hxy, if_neg hxy]

example (file : List Char) := C195_pgm_partial _ 3 2 _
  (picture_shows 3 2 fun x y => (⟨BitVec.ofNat 8 x, BitVec.ofNat 8 y, 200⟩ : RGB)) (by decide) (by decide)
  (by decide) List.reverse (fun l => l.reverse_perm) file

example : ∃ file, pnmWrite (picture 3 2 fun x y => (⟨BitVec.ofNat 8 x, BitVec.ofNat 8 y, 200⟩ : RGB))
    "P2".toList 255 = .ok file :=
  ⟨_, by rw [show "P2".toList = sP2 by decide]; exact pnmWrite_flat (picture_shows 3 2 _) (Or.inr (Or.inl rfl))⟩

/-- A PBM file has one digit for each pixel: cut anywhere but before the last line feed, it is refused. -/
theorem C195_pbm (im : Image RGB) (w h : Nat) (f : Nat → Nat → RGB) (s : im.Shows w h f)
    (hw : 0 < w) (hh : 0 < h) (hmem : w * h * 3 < 2 ^ 64) (sched : List Nat → List Nat) (hs : Fair sched)
    (file : List Char) (hfile : pnmWrite im "P1".toList 255 = .ok file) (k : Nat) :
    (file.length ≤ k + 1 → ∃ out, pnmRead sched (some (file.take k)) 8 = .ok out ∧
      out.Shows w h fun x y => if (f x y).c0 ≠ 0 then ⟨1, 1, 1⟩ else ⟨0, 0, 0⟩) ∧
    (k + 1 < file.length → ∃ e, pnmRead sched (some (file.take k)) 8 = .throw e) := by
  have e1 : "P1".toList = sP1 := by decide
  have hm : sP1 = sP1 ∨ sP1 = sP2 ∨ sP1 = sP3 := Or.inl rfl
  obtain ⟨file0, out0, h1, h2, so⟩ := C38_pbm_round_trip im w h f s 255 sched hs
  rw [e1, pnmWrite_flat s hm] at h1
  rw [e1, pnmWrite_flat s hm] at hfile
  obtain rfl := Res.ok.inj h1
  obtain rfl := Res.ok.inj hfile
  have hv : pixVals sP1 (f (w - 1) 0) = [] ++ [if (f (w - 1) 0).c0 = 0 then 1 else 0] := rfl
  have hl : (toStr (if (f (w - 1) 0).c0 = 0 then 1 else 0)).length = 1 := by
    split <;> decide
  have hc := pnm_cut (sched := sched) hm hw hh s.w_lt s.h_lt hmem hv k
  refine ⟨fun hk => ⟨out0, (pnm_end hm k hk).trans h2, so⟩, fun hk => ?_⟩
  rcases hc with hc | ⟨hc, -⟩
  · exact hc
  · exact absurd hc (by omega)

example (file : List Char) := C195_pbm _ 3 2 _
  (picture_shows 3 2 fun x y => (⟨BitVec.ofNat 8 x, BitVec.ofNat 8 y, 200⟩ : RGB)) (by decide) (by decide)
  (by decide) List.reverse (fun l => l.reverse_perm) file

example : ∃ file, pnmWrite (picture 3 2 fun x y => (⟨BitVec.ofNat 8 x, BitVec.ofNat 8 y, 200⟩ : RGB))
    "P1".toList 255 = .ok file :=
  ⟨_, by rw [show "P1".toList = sP1 by decide]; exact pnmWrite_flat (picture_shows 3 2 _) (Or.inl rfl)⟩

/-- The full property fails: the file of a white pixel, cut two characters before its end, is read without an error
as a pixel of another colour. -/
theorem C195_ppm_violation :
    ¬ ∀ (im : Image RGB) (w h : Nat) (f : Nat → Nat → RGB), im.Shows w h f → 0 < w → 0 < h →
      ∀ file, pnmWrite im "P3".toList 255 = .ok file → ∀ k out,
        pnmRead id (some (file.take k)) 8 = .ok out → out = im := by
  intro h
  have hm : sP3 = sP1 ∨ sP3 = sP2 ∨ sP3 = sP3 := Or.inr (Or.inr rfl)
  have e3 : "P3".toList = sP3 := by decide
  have s1 := picture_shows 1 1 (fun _ _ => (⟨255, 255, 255⟩ : RGB))
  have s2 := picture_shows 1 1 (fun _ _ => (⟨255, 255, 25⟩ : RGB))
  have w1 := pnmWrite_flat s1 hm
  have w2 := pnmWrite_flat s2 hm
  rw [← e3] at w1 w2
  have r2 := (C195_ppm_partial _ 1 1 _ s2 (by decide) (by decide) (by decide) id (fun l => List.Perm.refl l) _ w2
    21).1 (by decide)
  have hcut : (flat (wholeText "P3".toList 1 1 (allWords "P3".toList 1 1 fun _ _ => (⟨255, 255, 255⟩ : RGB)))).take 21 =
      (flat (wholeText "P3".toList 1 1 (allWords "P3".toList 1 1 fun _ _ => (⟨255, 255, 25⟩ : RGB)))).take 21 := by
    decide
  have h3 := h _ 1 1 _ s1 (by decide) (by decide) _ w1 21 _ (by rw [hcut]; exact r2)
  have a1 := s1.at2u (x := 0) (y := 0) (by decide) (by decide)
  have a2 := s2.at2u (x := 0) (y := 0) (by decide) (by decide)
  rw [h3, a1] at a2
  exact absurd (Res.ok.inj a2) (by decide)

/-! ## C196 CSV files that are cut or have rows of different length -/

/-- A CSV file of integers, cut after `k` characters of which `r` are line feeds. Nothing left: the default image.
Less than a row left: one row, its cells right but for the last. Otherwise the width is right, the `r` whole rows are
right, and of a last row that is not whole the cells before the cut are right and those after it 0.
Missing: a cut is never noticed, see `C196_violation`. -/
theorem C196_integers_partial (lo hi : Int) (im : Image Int) (w h : Nat) (f : Nat → Nat → Int)
    (s : im.Shows w h f) (hw : 0 < w) (hh : 0 < h)
    (hr : ∀ x y, x < w → y < h → lo ≤ f x y ∧ f x y ≤ hi)
    (sched sched' : List Nat → List Nat) (hs : Fair sched) (hs' : Fair sched') (file : List Char)
    (hfile : csvWrite sched intStr im = .ok file) (k r : Nat) (hc : (file.take k).count '\n' = r) :
    (k = 0 → csvRead sched' (parseIntCell lo hi) 0 (some (file.take k)) = .ok Image.default) ∧
    (0 < k → r = 0 → ∃ out g w', csvRead sched' (parseIntCell lo hi) 0 (some (file.take k)) = .ok out ∧
      out.Shows w' 1 g ∧ 0 < w' ∧ w' ≤ w ∧ ∀ x, x + 1 < w' → g x 0 = f x 0) ∧
    (0 < r → ∃ out g h' n, csvRead sched' (parseIntCell lo hi) 0 (some (file.take k)) = .ok out ∧
      out.Shows w h' g ∧ h' ≤ h ∧ (h' = r ∨ h' = r + 1) ∧ (∀ x y, x < w → y < r → g x y = f x y) ∧
      (h' = r + 1 → ∀ x, x < w → (x < n → g x r = f x r) ∧ (n < x → g x r = 0))) := by
  rw [csvWrite_eq s intStr hs] at hfile
  have hp := parseIntCell_total lo hi
  have hv : ∀ x y, x < w → y < h → cellVal lo hi (intStr (f x y)) = f x y := by
    intro x y hx hy
    have := hp (intStr (f x y))
    rw [parseIntCell_intStr (hr x y hx hy).1 (hr x y hx hy).2] at this
    exact (Res.ok.inj this).symm
  obtain ⟨h1, h2, h3⟩ := csv_cut (parseIntCell lo hi) (cellVal lo hi) hp 0 hw hh s.w_lt s.h_lt s.fits
    (fun x y => intStr (f x y)) (fun x y _ _ => intStr_cell _) file (Res.ok.inj hfile).symm hs' k r hc.symm
  refine ⟨h1, fun hk h0 => ?_, fun h0 => ?_⟩
  · obtain ⟨out, g, w', e, so, hpos, hle, hg⟩ := h2 hk h0
    exact ⟨out, g, w', e, so, hpos, hle, fun x hx => (hg x hx).trans (hv x 0 (by omega) hh)⟩
  · obtain ⟨out, g, h', n, e, so, hle, hor, hg, hl⟩ := h3 h0
    have hrh : r ≤ h := by omega
    exact ⟨out, g, h', n, e, so, hle, hor, fun x y hx hy => (hg x y hx hy).trans (hv x y hx (by omega)),
      fun h4 x hx => ⟨fun hxn => ((hl h4 x hx).1 hxn).trans (hv x r hx (by omega)), (hl h4 x hx).2⟩⟩

example (file : List Char) := C196_integers_partial (-128) 127 _ 3 2 _
  (picture_shows 3 2 fun x y => 10 * (x : Int) - 100 * y)
  (by decide) (by decide) (fun x y hx hy => by omega) List.reverse id (fun l => l.reverse_perm) (fun l => .refl l) file

example : csvWrite id intStr (⟨[1, 2], [5, 67]⟩ : Image Int) = .ok "5\n67\n".toList ∧
    csvRead id (parseIntCell (-128) 127) 0 (some ("5\n67\n".toList.take 3)) = .ok ⟨[1, 2], [5, 6]⟩ := by
  refine ⟨by decide +kernel, by decide +kernel⟩

/-- The full property fails: a file cut after the first of two rows is read without an error, as a picture of one
row. -/
theorem C196_violation :
    ¬ ∀ (im : Image Int) (w h : Nat) (f : Nat → Nat → Int), im.Shows w h f → 0 < w → 0 < h →
      (∀ x y, x < w → y < h → -128 ≤ f x y ∧ f x y ≤ 127) →
      ∀ file, csvWrite id intStr im = .ok file → ∀ k out,
        csvRead id (parseIntCell (-128) 127) 0 (some (file.take k)) = .ok out → out = im := by
  intro h
  have := h _ 1 2 _ (picture_shows 1 2 fun _ y => (y : Int) + 5) (by decide) (by decide) (fun x y _ hy => by omega)
    "5\n6\n".toList (by decide +kernel) 2 ⟨[1, 1], [5]⟩ (by decide +kernel)
  exact absurd this (by decide)

/-- A file whose rows have different lengths: the first row gives the width, missing cells are 0 and surplus
cells are dropped. -/
theorem C196_ragged_rows (lo hi : Int) (first : List Int) (others : List (List Int)) (w h : Nat)
    (hne : ∀ row ∈ first :: others, row ≠ [])
    (hr : ∀ row ∈ first :: others, ∀ v ∈ row, lo ≤ v ∧ v ≤ hi)
    (hw : first.length = w) (hh : (first :: others).length = h) (hw' : w < 2 ^ 64) (hh' : h < 2 ^ 64)
    (hwh : w * h < 2 ^ 64) (sched : List Nat → List Nat) (hs : Fair sched) :
    ∃ out, csvRead sched (parseIntCell lo hi) 0
        (some ((first :: others).flatMap fun row => [','].intercalate (row.map intStr) ++ ['\n'])) = .ok out ∧
      out.Shows w h fun x y => ((first :: others).getD y []).getD x 0 := by
  have hcells : ∀ row : List Int, row ≠ [] → getlines ',' ([','].intercalate (row.map intStr)) = row.map intStr :=
    fun row h0 => getlines_intercalate _ (by simpa using h0) fun c hc => by
      obtain ⟨v, -, rfl⟩ := List.mem_map.1 hc
      exact ⟨(intStr_cell v).1, (intStr_cell v).2.1⟩
  have hnl : ∀ row : List Int, '\n' ∉ [','].intercalate (row.map intStr) := fun row hm => by
    rcases mem_intercalate hm with h | ⟨c, hc, h⟩
    · exact absurd h (by decide)
    · obtain ⟨v, -, rfl⟩ := List.mem_map.1 hc
      exact (intStr_cell v).2.2 h
  have hlines : (getlines '\n' ((first :: others).flatMap fun row =>
      [','].intercalate (row.map intStr) ++ ['\n'])).filter (· ≠ []) =
      [','].intercalate (first.map intStr) :: others.map fun row => [','].intercalate (row.map intStr) := by
    have := getlines_lines (sep := '\n') ((first :: others).map fun row => [','].intercalate (row.map intStr)) (by
      intro r hr
      obtain ⟨row, -, rfl⟩ := List.mem_map.1 hr
      exact hnl row) []
    rw [List.append_nil, getlines_nil, List.append_nil, List.flatMap_map] at this
    rw [this, List.filter_eq_self.2]
    · rfl
    · intro r hr
      obtain ⟨row, hrow, rfl⟩ := List.mem_map.1 hr
      have h1 := hcells row (hne row hrow)
      have : [','].intercalate (row.map intStr) ≠ [] := by
        intro h0
        rw [h0, getlines_nil] at h1
        exact hne row hrow (by simpa using h1.symm)
      simpa using this
  obtain ⟨out, e, so⟩ := csvRead_total (parseIntCell lo hi) (cellVal lo hi) (parseIntCell_total lo hi) 0 _ _ _ hlines w h
    (by rw [hcells first (hne first (by simp))]; simp [hw]) (by rw [← hh]; simp) hw' hh' hwh hs
  refine ⟨out, e, so.congr fun x y _ hy => ?_⟩
  have hy' : y < (first :: others).length := by omega
  have hg : (([','].intercalate (first.map intStr) :: others.map fun row => [','].intercalate (row.map intStr)).getD y []) =
      [','].intercalate (((first :: others).getD y []).map intStr) := by
    have : ([','].intercalate (first.map intStr) :: others.map fun row => [','].intercalate (row.map intStr)) =
        (first :: others).map fun row => [','].intercalate (row.map intStr) := rfl
    rw [this, List.getD_eq_getElem?_getD, List.getD_eq_getElem?_getD, List.getElem?_map,
      List.getElem?_eq_getElem hy']
    rfl
  have hmem : (first :: others).getD y [] ∈ first :: others := by
    rw [List.getD_eq_getElem?_getD, List.getElem?_eq_getElem hy']
    exact List.getElem_mem hy'
  rw [hg, hcells _ (hne _ hmem), List.getElem?_map]
  generalize hrow : (first :: others).getD y [] = row at hmem ⊢
  rw [List.getD_eq_getElem?_getD]
  cases hx : row[x]? with
  | none => rfl
  | some v =>
    have hv := hr row hmem v (List.mem_of_getElem? hx)
    have := parseIntCell_total lo hi (intStr v)
    rw [parseIntCell_intStr hv.1 hv.2] at this
    simpa using (Res.ok.inj this).symm

example := C196_ragged_rows (-128) 127 [1, 2, 3] [[4], [5, 6, 7, 8, 9]] 3 3 (by decide) (by decide) rfl rfl
  (by decide) (by decide) (by decide) List.reverse (fun l => l.reverse_perm)

end

end TinyDIP.Props
