import Verif.Lemmas.Io
import Verif.Spec.IoHandles
import Verif.Props.Io

/-!
# Property C176: reading and writing files any number of times
-/

namespace TinyDIP.Props

open TinyDIP Image

/-! ## Helpers -/

theorem bmpFileReadH_succ (n : Nat) (file : List Byte) : bmpFileReadH (n + 1) file = bmpFileRead file := by
  unfold bmpFileReadH bmpFileRead readSizeH bmpReadDetailH
  simp only [Nat.add_eq_zero_iff, one_ne_zero, and_false, if_false, bind_assoc, Res.ok_bind]

theorem bmpFileReadH_zero (file : List Byte) : bmpFileReadH 0 file = .ok (0, 0, []) := by
  unfold bmpFileReadH readSizeH
  simp only [if_true, Res.ok_bind, true_or]

theorem bmpReadH_eq (p : Proc) (n : List Char) (e : Bool) (h : 2 ≤ p.free) :
    (bmpReadH p n e).1 = bmpRead p.files n e := by
  obtain ⟨k, hk⟩ : ∃ k, p.free - 1 = k + 1 := ⟨p.free - 2, by omega⟩
  unfold bmpReadH
  split
  next hc => unfold bmpRead; rw [hc]
  next file hc =>
    rw [if_neg (by omega), hk, bmpFileReadH_succ]
    unfold bmpRead
    rw [hc]

theorem le32At_cases (file : List Byte) (k : Nat) :
    (∃ v, le32At file k = .ok v) ∨ le32At file k = .ub := by
  unfold le32At vget
  rcases file[k]? with _ | a <;> rcases file[k + 1]? with _ | b <;> rcases file[k + 2]? with _ | c <;>
    rcases file[k + 3]? with _ | d <;> simp [Res.ub_bind, Res.ok_bind]

theorem dblReadH_eq (p : Proc) (n : List Char) (e : Bool) (h : 2 ≤ p.free) :
    (dblReadH p n e).1 = dblRead p.files n e := by
  obtain ⟨k, hk⟩ : ∃ k, p.free - 1 = k + 1 := ⟨p.free - 2, by omega⟩
  unfold dblReadH
  split
  next hc => unfold dblRead; rw [hc]
  next file hc =>
    rw [if_neg (by omega), hk]
    unfold readSizeH
    simp only [Nat.add_eq_zero_iff, one_ne_zero, and_false, if_false]
    rcases le32At_cases file 18 with ⟨x, hx⟩ | hx
    · rcases le32At_cases file 22 with ⟨y, hy⟩ | hy
      · simp only [hx, hy, Res.ok_bind]
        split
        next h' =>
          unfold dblRead
          rw [hc]
          simp only [hx, hy, Res.ok_bind]
          rw [if_pos h']
        · rfl
      · unfold dblRead
        rw [hc]
        simp only [hx, hy, Res.ok_bind, Res.ub_bind]
    · unfold dblRead
      rw [hc]
      simp only [hx, Res.ub_bind]

theorem hsvReadH_eq (p : Proc) (n : List Char) (e : Bool) (h : 2 ≤ p.free) :
    (hsvReadH p n e).1 = hsvRead p.files n e := by
  obtain ⟨k, hk⟩ : ∃ k, p.free - 1 = k + 1 := ⟨p.free - 2, by omega⟩
  unfold hsvReadH
  split
  next hc => unfold hsvRead; rw [hc]
  next file hc =>
    rw [if_neg (by omega), hk]
    unfold readSizeH
    simp only [Nat.add_eq_zero_iff, one_ne_zero, and_false, if_false]
    rcases le32At_cases file 18 with ⟨x, hx⟩ | hx
    · rcases le32At_cases file 22 with ⟨y, hy⟩ | hy
      · simp only [hx, hy, Res.ok_bind]
        split
        next h' =>
          unfold hsvRead
          rw [hc]
          simp only [hx, hy, Res.ok_bind]
          rw [if_pos h']
        · rfl
      · unfold hsvRead
        rw [hc]
        simp only [hx, hy, Res.ok_bind, Res.ub_bind]
    · unfold hsvRead
      rw [hc]
      simp only [hx, Res.ub_bind]

theorem bmpReadH_proc (p : Proc) (n : List Char) (e : Bool) :
    (bmpReadH p n e).2.files = p.files ∧ p.free ≤ (bmpReadH p n e).2.free + 1 := by
  unfold bmpReadH
  split
  · exact ⟨rfl, Nat.le_succ _⟩
  · split
    · exact ⟨rfl, Nat.le_succ _⟩
    · exact ⟨rfl, by simp only; omega⟩

theorem dblReadH_proc (p : Proc) (n : List Char) (e : Bool) :
    (dblReadH p n e).2.files = p.files ∧ p.free ≤ (dblReadH p n e).2.free + 1 := by
  unfold dblReadH
  split
  · exact ⟨rfl, Nat.le_succ _⟩
  · split
    · exact ⟨rfl, Nat.le_succ _⟩
    · split
      · split
        · exact ⟨rfl, by simp only; omega⟩
        · exact ⟨rfl, Nat.le_succ _⟩
      · exact ⟨rfl, Nat.le_succ _⟩

theorem hsvReadH_proc (p : Proc) (n : List Char) (e : Bool) :
    (hsvReadH p n e).2.files = p.files ∧ p.free ≤ (hsvReadH p n e).2.free + 1 := by
  unfold hsvReadH
  split
  · exact ⟨rfl, Nat.le_succ _⟩
  · split
    · exact ⟨rfl, Nat.le_succ _⟩
    · split
      · split
        · exact ⟨rfl, by simp only; omega⟩
        · exact ⟨rfl, Nat.le_succ _⟩
      · exact ⟨rfl, Nat.le_succ _⟩

theorem putH_eq (p : Proc) (name : List Char) (b : Res (List Byte)) (h : 1 ≤ p.free) :
    (FileResult.status (putH p name b).1, (putH p name b).2.files) =
        written p.files (do let x ← b; .ok (p.files.put name x)) ∧
      (putH p name b).2.free = p.free := by
  unfold putH
  cases b with
  | ok x =>
    dsimp only
    rw [if_neg (by omega)]
    exact ⟨rfl, rfl⟩
  | throw e => exact ⟨rfl, rfl⟩
  | ub => exact ⟨rfl, rfl⟩

theorem runH_eq (p : Proc) (c : FileCall) (h1 : 1 ≤ p.free) (h2 : c.reads = true → 2 ≤ p.free) :
    ((c.runH p).1, (c.runH p).2.files) = c.run p.files ∧
      p.free ≤ (c.runH p).2.free + (if c.reads then 1 else 0) := by
  cases c with
  | readBmp n e =>
    have := bmpReadH_proc p n e
    refine ⟨?_, this.2⟩
    show (_, (bmpReadH p n e).2.files) = (_, p.files)
    rw [this.1]
    refine Prod.ext ?_ rfl
    show _ = _
    simp only [FileCall.runH, FileCall.run]
    rw [bmpReadH_eq p n e (h2 rfl)]
  | readDbl n e =>
    have := dblReadH_proc p n e
    refine ⟨?_, this.2⟩
    show (_, (dblReadH p n e).2.files) = (_, p.files)
    rw [this.1]
    refine Prod.ext ?_ rfl
    show _ = _
    simp only [FileCall.runH, FileCall.run]
    rw [dblReadH_eq p n e (h2 rfl)]
  | readHsv n e =>
    have := hsvReadH_proc p n e
    refine ⟨?_, this.2⟩
    show (_, (hsvReadH p n e).2.files) = (_, p.files)
    rw [this.1]
    refine Prod.ext ?_ rfl
    show _ = _
    simp only [FileCall.runH, FileCall.run]
    rw [hsvReadH_eq p n e (h2 rfl)]
  | writeBmp n im =>
    have := putH_eq p (n ++ bmpExt) (bmpBytes im) h1
    exact ⟨this.1, by show _ ≤ (putH _ _ _).2.free + _; rw [this.2]; exact Nat.le_add_right _ _⟩
  | writeDbl n junk im =>
    have := putH_eq p (n ++ dbmpExt) (dblFile junk im) h1
    exact ⟨this.1, by show _ ≤ (putH _ _ _).2.free + _; rw [this.2]; exact Nat.le_add_right _ _⟩
  | writeHsv n junk im =>
    have := putH_eq p (n ++ hsvExt) (hsvFile junk im) h1
    exact ⟨this.1, by show _ ≤ (putH _ _ _).2.free + _; rw [this.2]; exact Nat.le_add_right _ _⟩

/-! ## C176 -/

/-- Any sequence of calls with fewer reads than files the process can still open: every call gives what it
gives when there is no limit, and the files end up the same.
Missing: longer sequences, see `C176_bmp_violation`. -/
theorem C176_calls_partial (cs : List FileCall) (p : Proc) (h : (cs.filter FileCall.reads).length < p.free) :
    (runCallsH p cs).1 = (runCalls p.files cs).1 ∧ (runCallsH p cs).2.files = (runCalls p.files cs).2 := by
  induction cs generalizing p with
  | nil => exact ⟨rfl, rfl⟩
  | cons c cs ih =>
    rw [List.filter_cons] at h
    have hc := runH_eq p c (by omega) (fun hr => by rw [if_pos hr, List.length_cons] at h; omega)
    have hlen : (cs.filter FileCall.reads).length < (c.runH p).2.free := by
      have := hc.2
      by_cases hr : c.reads = true
      · rw [if_pos hr] at this h; rw [List.length_cons] at h; omega
      · rw [if_neg hr] at this h; omega
    have hi := ih (c.runH p).2 hlen
    have h1 : (c.runH p).1 = (c.run p.files).1 := congrArg Prod.fst hc.1
    have h2 : (c.runH p).2.files = (c.run p.files).2 := congrArg Prod.snd hc.1
    rw [h2] at hi
    unfold runCallsH runCalls
    simp only
    exact ⟨by rw [h1, hi.1], hi.2⟩

example (fs : Files) := C176_calls_partial [.readBmp ['a'] true, .writeBmp ['b'] Image.default, .readHsv ['c'] true]
  ⟨fs, 3⟩ (show 2 < 3 by decide)

/-- Writing never uses up an open file, and neither does reading a `.dbmp` or `.hsv` file whose size fields
are there and are not 2^32 - 1, when two more files can be opened. -/
theorem C176_closed (p : Proc) (n : List Char) (e : Bool) :
    (∀ im, (FileCall.runH p (.writeBmp n im)).2.free = p.free) ∧
    (∀ junk im, (FileCall.runH p (.writeDbl n junk im)).2.free = p.free) ∧
    (∀ junk im, (FileCall.runH p (.writeHsv n junk im)).2.free = p.free) ∧
    (2 ≤ p.free →
      (∀ file, p.files.content (if e then n else n ++ ".dbmp".toList) = some file → SizedFile file →
        (FileCall.runH p (.readDbl n e)).2.free = p.free) ∧
      (∀ file, p.files.content (if e then n else n ++ ".hsv".toList) = some file → SizedFile file →
        (FileCall.runH p (.readHsv n e)).2.free = p.free)) := by
  have hput : ∀ name b, (putH p name b).2.free = p.free := by
    intro name b
    unfold putH
    cases b with
    | ok x => dsimp only; split <;> rfl
    | throw e => rfl
    | ub => rfl
  have hint : ∀ v : Nat, v < 2 ^ 32 → v ≠ 2 ^ 32 - 1 → toInt32 (v : Int) ≠ -1 := by
    intro v hv hne
    unfold toInt32
    rw [Int.bmod_def]
    split <;> omega
  have hle : ∀ (file : List Byte) k m, leAt file k m < 256 ^ m := by
    intro file k m
    induction m generalizing k with
    | zero => simp [leAt]
    | succ m ih =>
      have := ih (k + 1)
      have := (file.getD k 0).isLt
      rw [leAt, Nat.pow_succ]
      omega
  refine ⟨fun _ => hput _ _, fun _ _ => hput _ _, fun _ _ => hput _ _, fun h2 => ⟨?_, ?_⟩⟩
  · intro file hc hs
    have hext : ".dbmp".toList = dbmpExt := by decide
    rw [hext] at hc
    show (dblReadH p n e).2.free = p.free
    have hx := hint _ (hle file 18 4) hs.2.1
    have hy := hint _ (hle file 22 4) hs.2.2
    unfold dblReadH pathOf
    rw [hc]
    dsimp only
    rw [if_neg (by omega)]
    unfold readSizeH
    rw [if_neg (by omega), if_neg (by omega), le32At_eq (by have := hs.1; omega),
      le32At_eq (by have := hs.1; omega)]
    simp only [Res.ok_bind]
    rw [if_neg (by rintro (h | h); exacts [hx h, hy h])]
  · intro file hc hs
    have hext : ".hsv".toList = hsvExt := by decide
    rw [hext] at hc
    show (hsvReadH p n e).2.free = p.free
    have hx := hint _ (hle file 18 4) hs.2.1
    have hy := hint _ (hle file 22 4) hs.2.2
    unfold hsvReadH pathOf
    rw [hc]
    dsimp only
    rw [if_neg (by omega)]
    unfold readSizeH
    rw [if_neg (by omega), if_neg (by omega), le32At_eq (by have := hs.1; omega),
      le32At_eq (by have := hs.1; omega)]
    simp only [Res.ok_bind]
    rw [if_neg (by rintro (h | h); exacts [hx h, hy h])]

/-- Every BMP file that is read stays open. However many files a process may open, reading one and the same
readable file repeatedly gives its picture `N` times, then a picture without pixels, then exceptions; and
from then on no file can be written, although nothing about the file or the disk has changed. -/
theorem C176_bmp_violation (fs : Files) (N m : Nat) (name out : List Char) (ext : Bool) (im other : Image RGB)
    (w h : Nat) (f : Nat → Nat → RGB) (so : other.Shows w h f) (hw : bmpRow24 w < 2 ^ 31) (hh : h < 2 ^ 31)
    (hr : bmpRead fs name ext = .ok im) :
    ∃ none : Image RGB, none.Shows 0 0 (fun _ _ => ⟨0, 0, 0⟩) ∧
    (runCallsH ⟨fs, N + 1⟩ (List.replicate (N + 1 + m) (.readBmp name ext) ++ [.writeBmp out other])).1 =
      List.replicate N (.rgb (.ok im)) ++ [.rgb (.ok none)] ++ List.replicate m (.rgb (.throw .runtime)) ++
        [.status (.ok (-1))] ∧
    (runCallsH ⟨fs, N + 1⟩ (List.replicate (N + 1 + m) (.readBmp name ext) ++ [.writeBmp out other])).2.files =
      fs := by
  obtain ⟨none, hn, sn⟩ := rawToImage_ok (buf := []) (w := 0) (h := 0) (f := fun _ _ => ⟨0, 0, 0⟩)
    (by omega) (by omega) (by omega) ⟨rfl, by intros; omega⟩
  refine ⟨none, sn, ?_⟩
  -- the file is there
  obtain ⟨file, hc⟩ : ∃ file, fs.content (pathOf name bmpExt ext) = some file := by
    cases hc : fs.content (pathOf name bmpExt ext) with
    | none => unfold bmpRead at hr; rw [hc] at hr; exact absurd hr (by simp)
    | some file => exact ⟨file, rfl⟩
  rw [bmpRow24_eq] at hw
  obtain ⟨buf, eb, -, -⟩ := bmpBytes_ok so hh hw
  -- with no free file
  have h0 : ∀ m, runCallsH ⟨fs, 0⟩ (List.replicate m (.readBmp name ext) ++ [.writeBmp out other]) =
      (List.replicate m (.rgb (.throw .runtime)) ++ [.status (.ok (-1))], ⟨fs, 0⟩) := by
    intro m
    induction m with
    | zero =>
      simp only [List.replicate_zero, List.nil_append, runCallsH, FileCall.runH, eb, putH, if_true]
    | succ m ih =>
      have hb : bmpReadH ⟨fs, 0⟩ name ext = (.throw .runtime, ⟨fs, 0⟩) := by
        unfold bmpReadH
        simp only [hc, if_true]
      rw [List.replicate_succ, List.cons_append]
      unfold runCallsH
      simp only [FileCall.runH, hb, ih, List.replicate_succ, List.cons_append]
  induction N with
  | zero =>
    have hb : bmpReadH ⟨fs, 0 + 1⟩ name ext = (.ok none, ⟨fs, 0⟩) := by
      unfold bmpReadH
      simp only [hc, Nat.zero_add, one_ne_zero, if_false, Nat.sub_self, bmpFileReadH_zero, Res.ok_bind, hn]
    rw [show 0 + 1 + m = m + 1 from by omega, List.replicate_succ, List.cons_append]
    unfold runCallsH
    simp only [FileCall.runH, hb, h0, List.replicate_zero, List.nil_append, List.cons_append, and_self]
  | succ N ih =>
    have hb : bmpReadH ⟨fs, N + 1 + 1⟩ name ext = (.ok im, ⟨fs, N + 1⟩) := by
      refine Prod.ext ?_ ?_
      · rw [bmpReadH_eq _ _ _ (by simp only; omega)]; exact hr
      · unfold bmpReadH
        simp only [hc]
        rw [if_neg (by omega)]
        rfl
    rw [show N + 1 + 1 + m = (N + 1 + m) + 1 from by omega, List.replicate_succ, List.cons_append]
    unfold runCallsH
    simp only [FileCall.runH, hb, ih, List.replicate_succ, List.cons_append, and_self]

/-- The 1 x 2 picture of `sampleBmp24`, read in a process that can open three files: the picture twice, no
pixels, an exception; then a 5 x 3 picture cannot be written. -/
example : ∃ im none : Image RGB,
    (im.Shows 1 2 fun x y => bgrAt (sampleBmp24 [2, 0, 0, 0]) (54 + y * bmpRow24 1 + 3 * x)) ∧
    none.Shows 0 0 (fun _ _ => ⟨0, 0, 0⟩) ∧
    (runCallsH ⟨⟨fun _ => some (sampleBmp24 [2, 0, 0, 0]), fun _ => true⟩, 3⟩
      [.readBmp ['a'] true, .readBmp ['a'] true, .readBmp ['a'] true, .readBmp ['a'] true,
        .writeBmp ['b'] (Image.ofSizes ⟨1, 2, 3⟩ [5, 3])]).1 =
      [.rgb (.ok im), .rgb (.ok im), .rgb (.ok none), .rgb (.throw .runtime), .status (.ok (-1))] := by
  obtain ⟨im, hr, si⟩ := C83_bmp24_partial ⟨fun _ => some (sampleBmp24 [2, 0, 0, 0]), fun _ => true⟩ ['a'] true
    _ 1 2 54 40 rfl ⟨by decide, by decide, by decide, by decide, by decide, by decide⟩ (by decide) (by decide)
    (by decide) (by decide)
  obtain ⟨none, sn, h, -⟩ := C176_bmp_violation _ 2 1 ['a'] ['b'] true im _ 5 3 _
    (ofSizes_shows (⟨1, 2, 3⟩ : RGB) (w := 5) (h := 3) (by omega) (by omega) (by omega)) (by decide) (by decide) hr
  exact ⟨im, none, si, sn, h⟩

/-- Two reads and a write, with three files that can be opened; a file with two size fields. -/
example : (([.readBmp ['a'] true, .writeBmp ['b'] Image.default, .readHsv ['c'] true] : List FileCall).filter
      FileCall.reads).length < 3 ∧ SizedFile (sampleBmp24 [2, 0, 0, 0]) :=
  ⟨by decide, by decide, by decide, by decide⟩

end TinyDIP.Props
