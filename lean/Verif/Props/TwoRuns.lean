import Verif.Lemmas.TwoRuns
import Verif.Lemmas.CrashSeries
import Verif.Props.Crash

/-!
# C202: two programs write pictures at the same time
-/

namespace TinyDIP.Props

open TinyDIP TinyDIP.Cli Image Crash

/-- Two processes that write different files (BMP, doubles or HSV), their steps in any order: what they can leave when
they stop anywhere is exactly what each could leave alone, and when both are over both files are whole. -/
theorem C202_different_files (fs : Files) (dir1 dir2 : List Char) (v1 v2 : List Char × Stored)
    (j1 j2 : List Char × List Byte) (h1 : SavedTo fs dir1 v1 j1) (h2 : SavedTo fs dir2 v2 j2) (hne : j1.1 ≠ j2.1) :
    ∃ ops1 ops2, storedOps fs dir1 v1 = .ok ops1 ∧ storedOps fs dir2 v2 = .ok ops2 ∧
      (∀ d, BothLeave fs.content ops1 ops2 d ↔ (∀ n, n ≠ j1.1 → n ≠ j2.1 → d n = fs.content n) ∧
        (d j1.1 = fs.content j1.1 ∨ ∃ k, d j1.1 = some (j1.2.take k)) ∧
        (d j2.1 = fs.content j2.1 ∨ ∃ k, d j2.1 = some (j2.2.take k))) ∧
      ∀ d, BothEnd fs.content ops1 ops2 d ↔ (∀ n, n ≠ j1.1 → n ≠ j2.1 → d n = fs.content n) ∧
        d j1.1 = some j1.2 ∧ d j2.1 = some j2.2 := by
  obtain ⟨ops1, e1, t1, q1⟩ := storedOps_job h1
  obtain ⟨ops2, e2, t2, q2⟩ := storedOps_job h2
  have ext : ∀ d d' : Disk Byte, (∀ n, n ≠ j1.1 → n ≠ j2.1 → d n = d' n) → d j1.1 = d' j1.1 → d j2.1 = d' j2.1 →
      d = d' := by
    intro d d' h a b
    funext n
    by_cases hn1 : n = j1.1
    · rw [hn1, a]
    by_cases hn2 : n = j2.1
    · rw [hn2, b]
    exact h n hn1 hn2
  have hold : ∀ {old b p now}, Holds old b p now → now = old ∨ ∃ k, now = some (b.take k) := by
    intro old b p now h
    cases p with
    | none => exact Or.inl h
    | some k => exact Or.inr ⟨k, h⟩
  have w0 : ∀ a : List Byte, writtenAt [] 0 a = a := fun a => writtenAt_all (Nat.zero_le _)
  have wn : ∀ a b : List Byte, writtenAt a a.length b = a ++ b := writtenAt_end
  refine ⟨_, _, e1, e2, fun d => ⟨?_, ?_⟩, fun d => ⟨?_, ?_⟩⟩
  · rintro ⟨r1, r2, h⟩
    obtain ⟨h0, ⟨p, -, h3⟩, q, -, h4⟩ := both_different hne t1 q1 t2 q2 h
    exact ⟨h0, hold h3, hold h4⟩
  · rintro ⟨h0, h3, h4⟩
    have s0 := Both.start (d := fs.content) (ops1 := .fopen j1.1 :: ops1) (ops2 := .fopen j2.1 :: ops2)
    have first : ∃ r1 d1, Both fs.content (.fopen j1.1 :: ops1) (.fopen j2.1 :: ops2) d1 r1 ⟨none, .fopen j2.1 :: ops2⟩ ∧
        d1 j1.1 = d j1.1 ∧ ∀ n, n ≠ j1.1 → d1 n = fs.content n := by
      rcases h3 with h3 | ⟨k, h3⟩
      · exact ⟨_, _, s0, h3.symm, fun _ _ => rfl⟩
      · refine ⟨_, _, both_firsts (both_firsts s0 run_open) (run_to t1 k), ?_, fun n hn => ?_⟩
        · simp only [Disk.writeAt, Disk.empty, if_true, Option.getD_some, w0, h3, q1]
        · simp only [Disk.writeAt, Disk.empty, if_neg hn]
    obtain ⟨r1, d1, s1, a1, a2⟩ := first
    rcases h4 with h4 | ⟨k, h4⟩
    · have : d = d1 := ext _ _ (fun n hn hn' => (h0 n hn hn').trans (a2 n hn).symm) a1.symm
        (h4.trans (a2 _ hne.symm).symm)
      exact ⟨_, _, this ▸ s1⟩
    · have s2 := both_seconds (both_seconds s1 run_open) (run_to t2 k)
      refine ⟨_, _, (congrArg (fun x => Both fs.content (.fopen j1.1 :: ops1) (.fopen j2.1 :: ops2) x _ _) ?_).mp s2⟩
      refine ext _ _ (fun n hn hn' => ?_) ?_ ?_
      · simp only [Disk.writeAt, Disk.empty, if_neg hn', a2 n hn, h0 n hn hn']
      · simp only [Disk.writeAt, Disk.empty, if_neg hne, a1]
      · simp only [Disk.writeAt, Disk.empty, if_true, Option.getD_some, w0, h4, q2]
  · rintro ⟨r1, r2, h, z1, z2⟩
    obtain ⟨h0, ⟨p, a1, h3⟩, q, a2, h4⟩ := both_different hne t1 q1 t2 q2 h
    rw [at_end a1 z1] at h3
    rw [at_end a2 z2] at h4
    simp only [Holds, List.take_length] at h3 h4
    exact ⟨h0, h3, h4⟩
  · rintro ⟨h0, h3, h4⟩
    have s0 := Both.start (d := fs.content) (ops1 := .fopen j1.1 :: ops1) (ops2 := .fopen j2.1 :: ops2)
    have s1 := both_firsts (both_firsts (both_firsts s0 run_open) (run_to t1 (rest ops1).length)) run_close
    have s2 := both_seconds (both_seconds (both_seconds s1 run_open) (run_to t2 (rest ops2).length)) run_close
    refine ⟨_, _, (congrArg (fun x => Both fs.content (.fopen j1.1 :: ops1) (.fopen j2.1 :: ops2) x _ _) ?_).mp s2,
      rfl, rfl⟩
    refine ext _ _ (fun n hn hn' => ?_) ?_ ?_
    · simp only [Disk.writeAt, Disk.empty, if_neg hn, if_neg hn', h0 n hn hn']
    · simp only [Disk.writeAt, Disk.empty, if_true, if_neg hne, Option.getD_some, w0, List.take_length,
        List.drop_length, wn, List.append_nil, q1, h3]
    · simp only [Disk.writeAt, Disk.empty, if_true, Option.getD_some, w0, List.take_length,
        List.drop_length, wn, List.append_nil, q2, h4]

/-- The job of saving a picture in the directory `d`. -/
theorem one_saved (name : List Char) (f : Nat → Nat → RGB) :
    ∃ b, SavedTo ⟨fun _ => none, fun _ => true⟩ "d".toList (name, .rgb (picture 3 2 f))
      ("d".toList ++ "/".toList ++ name ++ ".bmp".toList, b) := by
  obtain ⟨_, f1, b1, -, h1, h2, -⟩ := C192_bmp_partial ⟨fun _ => none, fun _ => true⟩
    ("d".toList ++ "/".toList ++ name) _ 3 2 _ (picture_shows 3 2 f) (by decide) (by decide) rfl
  exact ⟨b1, rfl, f1, h1, h2⟩

example : ∃ ops1 ops2 b1 b2, storedOps ⟨fun _ => none, fun _ => true⟩ "d".toList
      ("a".toList, .rgb (picture 3 2 fun x y => (⟨BitVec.ofNat 8 x, BitVec.ofNat 8 y, 7⟩ : RGB))) = .ok ops1 ∧
    storedOps ⟨fun _ => none, fun _ => true⟩ "d".toList
      ("b".toList, .rgb (picture 3 2 fun _ _ => (⟨1, 2, 3⟩ : RGB))) = .ok ops2 ∧
    ∀ d, BothEnd (fun _ => none) ops1 ops2 d ↔ (∀ n, n ≠ "d/a.bmp".toList → n ≠ "d/b.bmp".toList → d n = none) ∧
      d "d/a.bmp".toList = some b1 ∧ d "d/b.bmp".toList = some b2 := by
  obtain ⟨b1, h1⟩ := one_saved "a".toList fun x y => (⟨BitVec.ofNat 8 x, BitVec.ofNat 8 y, 7⟩ : RGB)
  obtain ⟨b2, h2⟩ := one_saved "b".toList fun _ _ => (⟨1, 2, 3⟩ : RGB)
  obtain ⟨o1, o2, e1, e2, -, e3⟩ := C202_different_files _ _ _ _ _ _ _ h1 h2
    (show "d/a.bmp".toList ≠ "d/b.bmp".toList by decide)
  exact ⟨o1, o2, b1, b2, e1, e2, e3⟩

/-- Two processes that write the same bytes to the same file, their steps in any order: when both are over the file
is whole and no other file has changed. -/
theorem C202_same_content (fs : Files) (dir1 dir2 : List Char) (v1 v2 : List Char × Stored)
    (j : List Char × List Byte) (h1 : SavedTo fs dir1 v1 j) (h2 : SavedTo fs dir2 v2 j) :
    ∃ ops1 ops2, storedOps fs dir1 v1 = .ok ops1 ∧ storedOps fs dir2 v2 = .ok ops2 ∧
      ∀ d, BothEnd fs.content ops1 ops2 d ↔ Replaced fs.content j.1 j.2 d := by
  obtain ⟨ops1, e1, t1, q1⟩ := storedOps_job h1
  obtain ⟨ops2, e2, t2, q2⟩ := storedOps_job h2
  refine ⟨_, _, e1, e2, fun d => ⟨fun h => ?_, fun h => ?_⟩⟩
  · obtain ⟨h0, c, hc, hl, k, hk, hkc, hb⟩ := same_end t1 q1 t2 q2 h
    refine ⟨h0, hc.trans (congrArg some (List.ext_getElem? fun i => ?_))⟩
    by_cases hi : i < k
    · rcases hb i hi with h | h <;> exact h
    · rw [List.getElem?_eq_none (by omega), List.getElem?_eq_none (by omega)]
  · have := same_mix (d := fs.content) (name := j.1) t1 q1 t2 q2 rfl 0 (Nat.zero_le _)
    refine (congrArg (BothEnd _ _ _) ?_).mp this
    refine disk_ext (d := fs.content) (name := j.1) (fun n hn => if_neg hn) h.1 ?_
    rw [h.2, if_pos rfl]
    simp

example : ∃ ops1 ops2 b, storedOps ⟨fun _ => none, fun _ => true⟩ "d".toList
      ("a".toList, .rgb (picture 3 2 fun x y => (⟨BitVec.ofNat 8 x, BitVec.ofNat 8 y, 7⟩ : RGB))) = .ok ops1 ∧
    storedOps ⟨fun _ => none, fun _ => true⟩ "d".toList
      ("a".toList, .rgb (picture 3 2 fun x y => (⟨BitVec.ofNat 8 x, BitVec.ofNat 8 y, 7⟩ : RGB))) = .ok ops2 ∧
    ∀ d, BothEnd (fun _ => none) ops1 ops2 d ↔ Replaced (fun _ => none) "d/a.bmp".toList b d := by
  obtain ⟨b, h⟩ := one_saved "a".toList fun x y => (⟨BitVec.ofNat 8 x, BitVec.ofNat 8 y, 7⟩ : RGB)
  obtain ⟨o1, o2, e1, e2, e3⟩ := C202_same_content _ _ _ _ _ _ h h
  exact ⟨o1, o2, b, e1, e2, e3⟩

theorem bmp_job {fs : Files} {name : List Char} {im : Image RGB} {w h : Nat} {f : Nat → Nat → RGB}
    (s : im.Shows w h f) (hw : 0 < w) (hh : 0 < h) (hsz : bmpRow24 w * h < 2 ^ 31)
    (hwr : fs.writable (name ++ ".bmp".toList) = true) :
    ∃ ops buf, bmpOps fs name im = .ok (.fopen (name ++ ".bmp".toList) :: ops, 0) ∧ Tail ops ∧
      rest ops = bmpHeader (w * h * 3 + 54) w h ++ buf ∧ RawShows buf w h (w % 4) f := by
  have hext : ".bmp".toList = bmpExt := by decide
  rw [hext] at hwr ⊢
  rw [bmpRow24_eq] at hsz
  have hrow : w * 3 + w % 4 ≤ (w * 3 + w % 4) * h := Nat.le_mul_of_pos_right _ hh
  have hcol : h ≤ (w * 3 + w % 4) * h := Nat.le_mul_of_pos_left _ (by omega)
  obtain ⟨buf, e, r, -⟩ := bmpBytes_ok s (by omega) (by omega)
  obtain ⟨ops, o1, o2, o3⟩ := twoWrites_writable hwr (bmpHeader (w * h * 3 + 54) w h ++ buf)
  exact ⟨ops, buf, by rw [bmpOps, e, Res.ok_bind, o1], o2, o3, r⟩

theorem bmp_read_back {fs : Files} {name : List Char} {w h n : Nat} {buf : List Byte} {f : Nat → Nat → RGB}
    (hc : fs.content (name ++ ".bmp".toList) = some (bmpHeader n w h ++ buf)) (r : RawShows buf w h (w % 4) f)
    (hw : 0 < w) (hh : 0 < h) (hsz : bmpRow24 w * h < 2 ^ 31) (hf : w * h < 2 ^ 64) :
    ∃ out, bmpRead fs name false = .ok out ∧ out.Shows w h f := by
  have hext : ".bmp".toList = bmpExt := by decide
  rw [hext] at hc
  rw [bmpRow24_eq] at hsz
  have hrow : w * 3 + w % 4 ≤ (w * 3 + w % 4) * h := Nat.le_mul_of_pos_right _ hh
  have hcol : h ≤ (w * 3 + w % 4) * h := Nat.le_mul_of_pos_left _ (by omega)
  have hr := bmpFileRead_cut (n := n) (k := 54 + buf.length) (by omega) (by omega) hsz r.1 (by omega)
  rw [List.take_of_length_le (by rw [List.length_append, bmpHeader_length])] at hr
  have hworn : worn buf (54 + buf.length - 54) = buf := by simp [worn]
  rw [hworn] at hr
  obtain ⟨out, eo, so⟩ := rawToImage_ok (by omega) (by omega) hf r
  refine ⟨out, ?_, so⟩
  unfold bmpRead
  rw [pathOf_false, hc]
  simp only [hr, Res.ok_bind, eo]

/-- Two processes that write pictures of the same size to the same BMP file, their steps in any order: when both are
over the file is read as a picture of that size in which each colour value is that of the one picture or of
the other, and no other file has changed. Missing: that it is one of the two pictures, see
`C202_same_file_violation`. -/
theorem C202_same_file_partial (fs : Files) (name : List Char) (im1 im2 : Image RGB) (w h : Nat)
    (f1 f2 : Nat → Nat → RGB) (s1 : im1.Shows w h f1) (s2 : im2.Shows w h f2) (hw : 0 < w) (hh : 0 < h)
    (hsz : bmpRow24 w * h < 2 ^ 31) (hwr : fs.writable (name ++ ".bmp".toList) = true) :
    ∃ ops1 ops2, bmpOps fs name im1 = .ok (ops1, 0) ∧ bmpOps fs name im2 = .ok (ops2, 0) ∧
      ∀ d, BothEnd fs.content ops1 ops2 d → (∀ n, n ≠ name ++ ".bmp".toList → d n = fs.content n) ∧
        ∃ out f, bmpRead { fs with content := d } name false = .ok out ∧ out.Shows w h f ∧
          ∀ x y, x < w → y < h → ((f x y).c0 = (f1 x y).c0 ∨ (f x y).c0 = (f2 x y).c0) ∧
            ((f x y).c1 = (f1 x y).c1 ∨ (f x y).c1 = (f2 x y).c1) ∧
            ((f x y).c2 = (f1 x y).c2 ∨ (f x y).c2 = (f2 x y).c2) := by
  obtain ⟨ops1, buf1, o1, t1, q1, r1⟩ := bmp_job s1 hw hh hsz hwr
  obtain ⟨ops2, buf2, o2, t2, q2, r2⟩ := bmp_job s2 hw hh hsz hwr
  refine ⟨_, _, o1, o2, fun d hd => ?_⟩
  obtain ⟨h0, c, hc, hl, k, hk, hkc, hb⟩ := same_end t1 q1 t2 q2 hd
  have hlen : k = 54 + (w * 3 + w % 4) * h := by
    rcases hk with hk | hk
    · rw [hk, List.length_append, bmpHeader_length, r1.1]
    · rw [hk, List.length_append, bmpHeader_length, r2.1]
  have hcl : c.length = 54 + (w * 3 + w % 4) * h := by
    simp only [List.length_append, bmpHeader_length, r1.1, r2.1] at hl
    omega
  have hhead : c.take 54 = bmpHeader (w * h * 3 + 54) w h := by
    refine List.ext_getElem? fun i => ?_
    rw [List.getElem?_take]
    by_cases hi : i < 54
    · rw [if_pos hi]
      rcases hb i (by omega) with e | e <;>
        rw [e, List.getElem?_append_left (by rw [bmpHeader_length]; exact hi)]
    · rw [if_neg hi, List.getElem?_eq_none (by rw [bmpHeader_length]; omega)]
  have hsplit : c = bmpHeader (w * h * 3 + 54) w h ++ c.drop 54 := by rw [← hhead, List.take_append_drop]
  have hdl : (c.drop 54).length = (w * 3 + w % 4) * h := by rw [List.length_drop]; omega
  have get : ∀ i, i < (w * 3 + w % 4) * h → (c.drop 54)[i]? = buf1[i]? ∨ (c.drop 54)[i]? = buf2[i]? := by
    intro i hi
    rw [List.getElem?_drop]
    have e : ∀ b : List Byte, (bmpHeader (w * h * 3 + 54) w h ++ b)[54 + i]? = b[i]? := by
      intro b
      rw [List.getElem?_append_right (by rw [bmpHeader_length]; omega), bmpHeader_length]
      congr 1
      omega
    rw [← e buf1, ← e buf2]
    exact hb _ (by omega)
  have r : RawShows (c.drop 54) w h (w % 4) fun x y => (⟨(c.drop 54).getD (rawIdx w (w % 4) x y 0) 0,
      (c.drop 54).getD (rawIdx w (w % 4) x y 1) 0, (c.drop 54).getD (rawIdx w (w % 4) x y 2) 0⟩ : RGB) := by
    refine ⟨hdl, fun x y ch hx hy hch => ?_⟩
    have hlt := rawIdx_lt (fb := w % 4) (c := ch) hx hy
    have g : (c.drop 54)[rawIdx w (w % 4) x y ch]? = some ((c.drop 54).getD (rawIdx w (w % 4) x y ch) 0) := by
      rw [List.getD_eq_getElem?_getD, List.getElem?_eq_getElem (by omega)]; rfl
    have hch' : ch = 0 ∨ ch = 1 ∨ ch = 2 := by omega
    rcases hch' with rfl | rfl | rfl <;> exact g
  obtain ⟨out, eo, so⟩ := bmp_read_back (fs := { fs with content := d }) (hc.trans (congrArg some hsplit)) r hw hh hsz
    s1.fits
  refine ⟨h0, out, _, eo, so, fun x y hx hy => ?_⟩
  have val : ∀ ch, ch < 3 → (c.drop 54).getD (rawIdx w (w % 4) x y ch) 0 = (f1 x y).ch ch ∨
      (c.drop 54).getD (rawIdx w (w % 4) x y ch) 0 = (f2 x y).ch ch := by
    intro ch hch
    have hlt := rawIdx_lt (fb := w % 4) (c := ch) hx hy
    rw [List.getD_eq_getElem?_getD]
    rcases get _ hlt with e | e
    · rw [e, r1.2 x y ch hx hy hch]; exact Or.inl rfl
    · rw [e, r2.2 x y ch hx hy hch]; exact Or.inr rfl
  exact ⟨val 0 (by omega), val 1 (by omega), val 2 (by omega)⟩

example := C202_same_file_partial ⟨fun _ => none, fun _ => true⟩ "a".toList _ _ 3 2 _ _
  (picture_shows 3 2 fun x y => (⟨BitVec.ofNat 8 x, BitVec.ofNat 8 y, 7⟩ : RGB))
  (picture_shows 3 2 fun _ _ => (⟨9, 9, 9⟩ : RGB)) (by decide) (by decide) (by decide) rfl

/-- The full property fails for all pictures of the same size that differ in two places: what the two processes leave
can be read as a picture that neither of them wrote. -/
theorem C202_same_file_violation (fs : Files) (name : List Char) (im1 im2 : Image RGB) (w h : Nat)
    (f1 f2 : Nat → Nat → RGB) (s1 : im1.Shows w h f1) (s2 : im2.Shows w h f2) (hw : 0 < w) (hh : 0 < h)
    (hsz : bmpRow24 w * h < 2 ^ 31) (hwr : fs.writable (name ++ ".bmp".toList) = true)
    (x y x' y' : Nat) (hx : x < w) (hy : y < h) (hx' : x' < w) (hy' : y' < h) (hne : (x, y) ≠ (x', y'))
    (hd : f1 x y ≠ f2 x y) (hd' : f1 x' y' ≠ f2 x' y') :
    ∃ ops1 ops2 d out, bmpOps fs name im1 = .ok (ops1, 0) ∧ bmpOps fs name im2 = .ok (ops2, 0) ∧
      BothEnd fs.content ops1 ops2 d ∧ bmpRead { fs with content := d } name false = .ok out ∧
      out ≠ im1 ∧ out ≠ im2 := by
  obtain ⟨ops1, buf1, o1, t1, q1, r1⟩ := bmp_job s1 hw hh hsz hwr
  obtain ⟨ops2, buf2, o2, t2, q2, r2⟩ := bmp_job s2 hw hh hsz hwr
  -- the beginning of the later of the two pixels
  have key : ∀ x y x' y', x < w → y < h → x' < w → y' < h → f1 x y ≠ f2 x y → f1 x' y' ≠ f2 x' y' →
      y * (w * 3 + w % 4) + 3 * x + 3 ≤ y' * (w * 3 + w % 4) + 3 * x' →
      ∃ d out, BothEnd fs.content (.fopen (name ++ ".bmp".toList) :: ops1) (.fopen (name ++ ".bmp".toList) :: ops2) d ∧
        bmpRead { fs with content := d } name false = .ok out ∧ out ≠ im1 ∧ out ≠ im2 := by
    intro x y x' y' hx hy hx' hy' hd hd' hlt
    let m := y' * (w * 3 + w % 4) + 3 * x'
    have hm : m ≤ (w * 3 + w % 4) * h := by
      have := rawIdx_lt (fb := w % 4) (c := 2) hx' hy'
      rw [rawIdx_eq] at this
      show y' * (w * 3 + w % 4) + 3 * x' ≤ _
      omega
    have hmix := same_mix (d := fs.content) (name := name ++ ".bmp".toList) t1 q1 t2 q2
      (by simp [r1.1, r2.1]) (54 + m) (by rw [List.length_append, bmpHeader_length, r1.1]; omega)
    have hfile : (bmpHeader (w * h * 3 + 54) w h ++ buf2).take (54 + m) ++
        (bmpHeader (w * h * 3 + 54) w h ++ buf1).drop (54 + m) =
        bmpHeader (w * h * 3 + 54) w h ++ (buf2.take m ++ buf1.drop m) := by
      rw [List.take_append, List.drop_append, bmpHeader_length,
        List.take_of_length_le (by rw [bmpHeader_length]; omega),
        List.drop_eq_nil_of_le (by rw [bmpHeader_length]; omega)]
      simp
    rw [hfile] at hmix
    have hl2 : (buf2.take m).length = m := by rw [List.length_take, r2.1]; omega
    have r : RawShows (buf2.take m ++ buf1.drop m) w h (w % 4) fun a b =>
        (⟨if rawIdx w (w % 4) a b 0 < m then (f2 a b).c0 else (f1 a b).c0,
          if rawIdx w (w % 4) a b 1 < m then (f2 a b).c1 else (f1 a b).c1,
          if rawIdx w (w % 4) a b 2 < m then (f2 a b).c2 else (f1 a b).c2⟩ : RGB) := by
      refine ⟨by rw [List.length_append, hl2, List.length_drop, r1.1]; omega, fun a b ch ha hb hch => ?_⟩
      have g : (buf2.take m ++ buf1.drop m)[rawIdx w (w % 4) a b ch]? =
          some (if rawIdx w (w % 4) a b ch < m then (f2 a b).ch ch else (f1 a b).ch ch) := by
        by_cases hi : rawIdx w (w % 4) a b ch < m
        · rw [List.getElem?_append_left (by omega), List.getElem?_take, if_pos hi, if_pos hi, r2.2 a b ch ha hb hch]
        · rw [List.getElem?_append_right (by omega), hl2, List.getElem?_drop, if_neg hi, ← r1.2 a b ch ha hb hch]
          congr 1
          omega
      have hch' : ch = 0 ∨ ch = 1 ∨ ch = 2 := by omega
      rcases hch' with rfl | rfl | rfl <;> exact g
    obtain ⟨out, eo, so⟩ := bmp_read_back (fs := { fs with content := fun n =>
      if n = name ++ ".bmp".toList then
        (some (bmpHeader (w * h * 3 + 54) w h ++ (buf2.take m ++ buf1.drop m))) else fs.content n }) (if_pos rfl) r hw hh hsz s1.fits
    have lo : ∀ ch, ch < 3 → rawIdx w (w % 4) x y ch < m := by
      intro ch hch; rw [rawIdx_eq]; show _ < y' * (w * 3 + w % 4) + 3 * x'; omega
    have hi : ∀ ch, ¬ rawIdx w (w % 4) x' y' ch < m := by
      intro ch; rw [rawIdx_eq]; show ¬ _ < y' * (w * 3 + w % 4) + 3 * x'; omega
    refine ⟨_, out, hmix, eo, fun e => ?_, fun e => ?_⟩
    · subst e
      have := (s1.at2u hx hy).symm.trans (so.at2u hx hy)
      rw [Res.ok.injEq, if_pos (lo 0 (by omega)), if_pos (lo 1 (by omega)), if_pos (lo 2 (by omega))] at this
      exact hd this
    · subst e
      have := (s2.at2u hx' hy').symm.trans (so.at2u hx' hy')
      rw [Res.ok.injEq, if_neg (hi 0), if_neg (hi 1), if_neg (hi 2)] at this
      exact hd' this.symm
  have order : y * (w * 3 + w % 4) + 3 * x + 3 ≤ y' * (w * 3 + w % 4) + 3 * x' ∨
      y' * (w * 3 + w % 4) + 3 * x' + 3 ≤ y * (w * 3 + w % 4) + 3 * x := by
    rcases Nat.lt_trichotomy y y' with hl | rfl | hl
    · have : (y + 1) * (w * 3 + w % 4) ≤ y' * (w * 3 + w % 4) := Nat.mul_le_mul_right _ hl
      rw [Nat.add_mul] at this
      omega
    · have : x ≠ x' := fun e => hne (by rw [e])
      omega
    · have : (y' + 1) * (w * 3 + w % 4) ≤ y * (w * 3 + w % 4) := Nat.mul_le_mul_right _ hl
      rw [Nat.add_mul] at this
      omega
  rcases order with ho | ho
  · obtain ⟨d, out, a, b, c⟩ := key x y x' y' hx hy hx' hy' hd hd' ho
    exact ⟨_, _, d, out, o1, o2, a, b, c⟩
  · obtain ⟨d, out, a, b, c⟩ := key x' y' x y hx' hy' hx hy hd' hd ho
    exact ⟨_, _, d, out, o1, o2, a, b, c⟩

example := C202_same_file_violation ⟨fun _ => none, fun _ => true⟩ "a".toList _ _ 3 2 _ _
  (picture_shows 3 2 fun x y => (⟨BitVec.ofNat 8 x, BitVec.ofNat 8 y, 7⟩ : RGB))
  (picture_shows 3 2 fun _ _ => (⟨9, 9, 9⟩ : RGB)) (by decide) (by decide) (by decide) rfl
  1 0 2 1 (by decide) (by decide) (by decide) (by decide) (by decide) (by decide) (by decide)

end TinyDIP.Props
