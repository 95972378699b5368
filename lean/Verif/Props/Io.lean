import Verif.Lemmas.Samples
import Verif.Lemmas.Io
import Mathlib.Tactic.NormNum
import Mathlib.Tactic.Ring
import Mathlib.Tactic.IntervalCases

/-!
# Properties C34-C37, C82, C83: binary image files
-/

namespace TinyDIP.Props

open TinyDIP Image

theorem bmpRow24_eq (w : Nat) : bmpRow24 w = w * 3 + w % 4 := by unfold bmpRow24; omega

/-! ## C34 24-bit BMP round trip -/

/-- Images with positive sizes whose pixel data is smaller than 2^31 bytes, any file system: writing
to a name that can be opened returns 0, only that file changes, and reading it, with or without the
extension in the name, gives the same image.
Missing: images with larger pixel data, for which reading overflows an `int` counter, see
`C34_bmp_violation`. -/
theorem C34_bmp_round_trip_partial (fs : Files) (name : List Char) (im : Image RGB) (w h : Nat)
    (f : Nat → Nat → RGB) (s : im.Shows w h f) (hw : 0 < w) (hh : 0 < h) (hsz : bmpRow24 w * h < 2 ^ 31)
    (hwr : fs.writable (name ++ ".bmp".toList) = true) :
    ∃ fs', bmpWrite fs name im = .ok (fs', 0) ∧
      bmpRead fs' name false = .ok im ∧ bmpRead fs' (name ++ ".bmp".toList) true = .ok im ∧
      ∀ n, n ≠ name ++ ".bmp".toList → fs'.content n = fs.content n := by
  have hext : ".bmp".toList = bmpExt := by decide
  rw [hext] at hwr ⊢
  rw [bmpRow24_eq] at hsz
  have hrow : w * 3 + w % 4 ≤ (w * 3 + w % 4) * h := Nat.le_mul_of_pos_right _ hh
  have hcol : h ≤ (w * 3 + w % 4) * h := Nat.le_mul_of_pos_left _ (by omega)
  obtain ⟨buf, e, r, -⟩ := bmpBytes_ok s (by omega) (by omega)
  obtain ⟨fs', e1, e2, e3, -⟩ := Files.put_writable hwr (bmpHeader (w * h * 3 + 54) w h ++ buf)
  have hf := bmpHeader_file (w * h * 3 + 54) w h buf (by omega) (by omega)
  have hlen : (bmpHeader (w * h * 3 + 54) w h ++ buf).length = 54 + (w * 3 + w % 4) * h := by
    rw [List.length_append, bmpHeader_length, r.1]
  have hd := bmpReadDetail_24 hf (h := h) (by omega) (by omega)
  have hbuf : ((bmpHeader (w * h * 3 + 54) w h ++ buf).drop 54).take ((w * 3 + w % 4) * h) = buf := by
    rw [List.drop_left' (bmpHeader_length _ _ _), ← r.1, List.take_length]
  rw [hbuf] at hd
  obtain ⟨out, eo, so⟩ := rawToImage_ok (buf := buf) (w := w) (h := h) (f := f) (by omega) (by omega)
    (by have := s.fits; omega) r
  have heq : out = im := so.ext s fun _ _ _ _ => rfl
  have hr := bmpFileRead_up hf (by omega) (by omega) hsz hd
  refine ⟨fs', by rw [bmpWrite, e, Res.ok_bind, e1], ?_, ?_, e3⟩
  · unfold bmpRead
    rw [pathOf_false, e2]
    simp only [hr, Res.ok_bind, eo, heq]
  · unfold bmpRead
    rw [pathOf_true, e2]
    simp only [hr, Res.ok_bind, eo, heq]

/-- A 5 x 3 image can be written and read back. -/
example : (Image.ofSizes ⟨1, 2, 3⟩ [5, 3] : Image RGB).Shows 5 3 (fun _ _ => ⟨1, 2, 3⟩) ∧
    bmpRow24 5 * 3 < 2 ^ 31 ∧
    (⟨fun _ => none, fun _ => true⟩ : Files).writable ("a".toList ++ ".bmp".toList) = true :=
  ⟨ofSizes_shows _ (by omega) (by omega) (by omega), by decide, rfl⟩

/-- Larger images: every image whose pixel data has between 2^31 and 2^32 bytes can be written, and
reading the file back is undefined behaviour (signed overflow of the counter in `bmp_file_read`). -/
theorem C34_bmp_violation (fs : Files) (name : List Char) (im : Image RGB) (w h : Nat)
    (f : Nat → Nat → RGB) (s : im.Shows w h f) (hw : bmpRow24 w < 2 ^ 31) (hh : h < 2 ^ 31)
    (h1 : 2 ^ 31 ≤ bmpRow24 w * h) (h2 : bmpRow24 w * h < 2 ^ 32)
    (hwr : fs.writable (name ++ ".bmp".toList) = true) :
    ∃ fs', bmpWrite fs name im = .ok (fs', 0) ∧ bmpRead fs' name false = .ub := by
  have hext : ".bmp".toList = bmpExt := by decide
  rw [hext] at hwr
  rw [bmpRow24_eq] at h1 h2 hw
  obtain ⟨buf, e, r, -⟩ := bmpBytes_ok s hh hw
  obtain ⟨fs', e1, e2, e3, -⟩ := Files.put_writable hwr (bmpHeader (w * h * 3 + 54) w h ++ buf)
  have hf := bmpHeader_file (w * h * 3 + 54) w h buf (by omega) (by omega)
  refine ⟨fs', by rw [bmpWrite, e, Res.ok_bind, e1], ?_⟩
  unfold bmpRead
  rw [pathOf_false, e2]
  simp only [bmpFileRead_large hf (by omega) hh (by omega), Res.ub_bind]

/-- A 32768 x 32768 image meets these bounds. -/
example : (Image.ofSizes ⟨1, 2, 3⟩ [32768, 32768] : Image RGB).Shows 32768 32768 (fun _ _ => ⟨1, 2, 3⟩) ∧
    bmpRow24 32768 < 2 ^ 31 ∧ 2 ^ 31 ≤ bmpRow24 32768 * 32768 ∧ bmpRow24 32768 * 32768 < 2 ^ 32 :=
  ⟨ofSizes_shows _ (by norm_num) (by norm_num) (by norm_num), by norm_num [bmpRow24],
    by norm_num [bmpRow24], by norm_num [bmpRow24]⟩

/-- A name that cannot be opened for writing: -1 is returned and no file changes. -/
theorem C34_bmp_unwritable (fs : Files) (name : List Char) (im : Image RGB) (w h : Nat)
    (f : Nat → Nat → RGB) (s : im.Shows w h f) (hw : bmpRow24 w < 2 ^ 31) (hh : h < 2 ^ 31)
    (hwr : fs.writable (name ++ ".bmp".toList) = false) :
    bmpWrite fs name im = .ok (fs, -1) := by
  have hext : ".bmp".toList = bmpExt := by decide
  rw [hext] at hwr
  rw [bmpRow24_eq] at hw
  obtain ⟨buf, e, -, -⟩ := bmpBytes_ok s hh hw
  rw [bmpWrite, e, Res.ok_bind, Files.put, if_neg (by simp [hwr])]

example := C34_bmp_unwritable ⟨fun _ => none, fun _ => false⟩ "a".toList _ 3 2 _
  (picture_shows 3 2 fun x y => (⟨BitVec.ofNat 8 x, BitVec.ofNat 8 y, 7⟩ : RGB)) (by decide) (by decide) rfl

/-- A missing file is reported by an exception. -/
theorem C34_bmp_missing (fs : Files) (name : List Char) (ext : Bool)
    (h : fs.content (if ext then name else name ++ ".bmp".toList) = none) :
    bmpRead fs name ext = .throw .runtime := by
  have hext : ".bmp".toList = bmpExt := by decide
  rw [hext] at h
  unfold bmpRead pathOf
  rw [h]

example : (⟨fun _ => none, fun _ => false⟩ : Files).content (if true then "a".toList else "b".toList) = none ∧
    (⟨fun _ => none, fun _ => false⟩ : Files).writable ("a".toList ++ ".bmp".toList) = false ∧
    (Image.ofSizes ⟨1, 2, 3⟩ [5, 3] : Image RGB).Shows 5 3 (fun _ _ => ⟨1, 2, 3⟩) ∧ bmpRow24 5 < 2 ^ 31 :=
  ⟨rfl, rfl, ofSizes_shows _ (by omega) (by omega) (by omega), by decide⟩

/-! ## C35 layout of a written BMP file -/

theorem getD_append_right' (a b : List Byte) (i : Nat) : (a ++ b).getD (a.length + i) 0 = b.getD i 0 := by
  rw [List.getD_eq_getElem?_getD, List.getD_eq_getElem?_getD, List.getElem?_append_right (by omega)]
  simp

/-- The rows of a written file have the least multiple of four bytes that can hold the pixels; the
fields of the header are little-endian and give the sizes, the offset of the pixels and the number
of bits; row `y` starts `y` rows after the offset and holds blue, green, red of each pixel; the
padding is zero; the file has no further bytes. -/
theorem C35_bmp_layout (fs : Files) (name : List Char) (im : Image RGB) (w h : Nat)
    (f : Nat → Nat → RGB) (s : im.Shows w h f) (hw : bmpRow24 w < 2 ^ 31) (hh : h < 2 ^ 31)
    (hwr : fs.writable (name ++ ".bmp".toList) = true) :
    ∃ fs' file, bmpWrite fs name im = .ok (fs', 0) ∧
      fs'.content (name ++ ".bmp".toList) = some file ∧
      (4 ∣ bmpRow24 w ∧ 3 * w ≤ bmpRow24 w ∧ bmpRow24 w < 3 * w + 4) ∧
      file.length = 54 + bmpRow24 w * h ∧
      (file.getD 0 0 = 0x42 ∧ file.getD 1 0 = 0x4d) ∧
      leAt file 18 4 = w ∧ leAt file 22 4 = h ∧ leAt file 10 4 = 54 ∧ leAt file 14 4 = 40 ∧
      leAt file 28 2 = 24 ∧
      (∀ x y, x < w → y < h → bgrAt file (54 + y * bmpRow24 w + 3 * x) = f x y) ∧
      ∀ y k, y < h → 3 * w ≤ k → k < bmpRow24 w → file.getD (54 + y * bmpRow24 w + k) 0 = 0 := by
  have hext : ".bmp".toList = bmpExt := by decide
  rw [hext] at hwr ⊢
  rw [bmpRow24_eq] at hw
  obtain ⟨buf, e, r, hpad⟩ := bmpBytes_ok s hh hw
  obtain ⟨fs', e1, e2, e3, -⟩ := Files.put_writable hwr (bmpHeader (w * h * 3 + 54) w h ++ buf)
  have hf := bmpHeader_file (w * h * 3 + 54) w h buf (by omega) (by omega)
  have g : ∀ i, (bmpHeader (w * h * 3 + 54) w h ++ buf).getD (54 + i) 0 = buf.getD i 0 := by
    intro i
    have := getD_append_right' (bmpHeader (w * h * 3 + 54) w h) buf i
    rwa [bmpHeader_length] at this
  refine ⟨fs', _, by rw [bmpWrite, e, Res.ok_bind, e1], e2, ⟨?_, ?_, ?_⟩, ?_, ⟨?_, ?_⟩, hf.w_eq, hf.h_eq,
    hf.off_eq, hf.hs_eq, hf.bits_eq, ?_, ?_⟩
  · exact ⟨(3 * w + 3) / 4, by unfold bmpRow24; omega⟩
  · unfold bmpRow24; omega
  · unfold bmpRow24; omega
  · rw [List.length_append, bmpHeader_length, r.1, bmpRow24_eq]
  · simp [bmpHeader]
  · simp [bmpHeader]
  · intro x y hx hy
    rw [bmpRow24_eq]
    have q : ∀ c, c < 3 → buf.getD (y * (w * 3 + w % 4) + (3 * x + (2 - c))) 0 = (f x y).ch c := by
      intro c hc
      rw [List.getD_eq_getElem?_getD, ← rawIdx_eq, r.2 x y c hx hy hc]; rfl
    have q0 := q 0 (by omega)
    have q1 := q 1 (by omega)
    have q2 := q 2 (by omega)
    have p0 := g (y * (w * 3 + w % 4) + 3 * x)
    have p1 := g (y * (w * 3 + w % 4) + 3 * x + 1)
    have p2 := g (y * (w * 3 + w % 4) + 3 * x + 2)
    simp only [← Nat.add_assoc] at p0 p1 p2
    simp only [Nat.sub_zero, Nat.reduceSub, ← Nat.add_assoc, Nat.add_zero] at q0 q1 q2
    unfold bgrAt
    rw [p0, p1, p2, q0, q1, q2]; rfl
  · intro y k hy hk1 hk2
    rw [bmpRow24_eq] at hk2 ⊢
    rw [Nat.add_assoc, g, List.getD_eq_getElem?_getD, hpad, Option.getD_some]
    · intro x' y' c hx' hy' hc he
      rw [rawIdx_eq] at he
      have d : ∀ a b, b < w * 3 + w % 4 → (a * (w * 3 + w % 4) + b) / (w * 3 + w % 4) = a := by
        intro a b hb
        rw [Nat.mul_comm, Nat.mul_add_div (by omega), Nat.div_eq_of_lt hb, Nat.add_zero]
      have hyy : y' = y := by
        have := congrArg (· / (w * 3 + w % 4)) he
        rwa [d _ _ (by omega), d _ _ (by omega)] at this
      subst hyy
      omega
    · have h1 : (w * 3 + w % 4) * (y + 1) ≤ (w * 3 + w % 4) * h := Nat.mul_le_mul_left _ hy
      have h2 : (w * 3 + w % 4) * (y + 1) = y * (w * 3 + w % 4) + (w * 3 + w % 4) := by ring
      omega

example : (Image.ofSizes ⟨1, 2, 3⟩ [5, 3] : Image RGB).Shows 5 3 (fun _ _ => ⟨1, 2, 3⟩) ∧
    bmpRow24 5 = 16 ∧ bmpRow24 4 = 12 ∧
    (⟨fun _ => none, fun _ => true⟩ : Files).writable ("a".toList ++ ".bmp".toList) = true :=
  ⟨ofSizes_shows _ (by omega) (by omega) (by omega), by decide, by decide, rfl⟩

/-! ## C36 8-bit BMP -/

/-- Complete bottom-up 8-bit files whose decoded data is smaller than 2^31 bytes and whose indices are
in the stored palette: each pixel is the palette colour of its index.
Missing: larger images, see `C36_bmp8_violation`. -/
theorem C36_bmp8_partial (fs : Files) (name : List Char) (ext : Bool) (file : List Byte) (w h off hs : Nat)
    (hc : fs.content (if ext then name else name ++ ".bmp".toList) = some file)
    (hf : BmpFile file 8 w h off hs) (hw : w < 2 ^ 31 - 3) (hh : h < 2 ^ 31) (ho : off < 2 ^ 31)
    (hs' : 14 + hs ≤ off)
    (hsz : bmpRow24 w * h < 2 ^ 31) (hlen : off + bmpRow8 w * h ≤ file.length)
    (hpal : ∀ x y, x < w → y < h →
      14 + hs + 4 * (file.getD (off + y * bmpRow8 w + x) 0).toNat + 3 ≤ off) :
    ∃ im, bmpRead fs name ext = .ok im ∧ im.Shows w h fun x y =>
      bgrAt file (14 + hs + 4 * (file.getD (off + y * bmpRow8 w + x) 0).toNat) := by
  have hext : ".bmp".toList = bmpExt := by decide
  rw [hext] at hc
  rw [bmpRow24_eq] at hsz
  obtain ⟨data, e, r⟩ := bmpReadDetail_8 hf (h := h) (by omega) hsz ho hs' hlen hpal
  have hwh : w * h ≤ (w * 3 + w % 4) * h := Nat.mul_le_mul_right _ (by omega)
  obtain ⟨out, eo, so⟩ := rawToImage_ok (w := w) (h := h) (by omega) hh (by omega) r
  refine ⟨out, ?_, so⟩
  unfold bmpRead pathOf
  rw [hc]
  simp only [bmpFileRead_up hf (by omega) hh hsz e, Res.ok_bind, eo]

/-- The same for top-down files with at least two rows. Missing: larger images, and files of one row
(`C83_bmp24_topdown_violation` for 24 bits). -/
theorem C36_bmp8_topdown_partial (fs : Files) (name : List Char) (ext : Bool) (file : List Byte)
    (w h off hs : Nat) (hc : fs.content (if ext then name else name ++ ".bmp".toList) = some file)
    (hf : BmpFile file 8 w (2 ^ 32 - h) off hs) (hw : w < 2 ^ 31 - 3) (hh : h < 2 ^ 31) (h1 : 1 < h)
    (ho : off < 2 ^ 31)
    (hs' : 14 + hs ≤ off) (hsz : bmpRow24 w * h < 2 ^ 31) (hlen : off + bmpRow8 w * h ≤ file.length)
    (hpal : ∀ x y, x < w → y < h →
      14 + hs + 4 * (file.getD (off + y * bmpRow8 w + x) 0).toNat + 3 ≤ off) :
    ∃ im, bmpRead fs name ext = .ok im ∧ im.Shows w h fun x y =>
      bgrAt file (14 + hs + 4 * (file.getD (off + (h - 1 - y) * bmpRow8 w + x) 0).toNat) := by
  have hext : ".bmp".toList = bmpExt := by decide
  rw [hext] at hc
  rw [bmpRow24_eq] at hsz
  obtain ⟨data, e, r⟩ := bmpReadDetail_8 hf (h := h) (by omega) hsz ho hs' hlen hpal
  have hwh : w * h ≤ (w * 3 + w % 4) * h := Nat.mul_le_mul_right _ (by omega)
  obtain ⟨data', e', r'⟩ := flipRaw_ok r
  obtain ⟨out, eo, so⟩ := rawToImage_ok (w := w) (h := h) (by omega) hh (by omega) r'
  refine ⟨out, ?_, so.congr fun x y _ _ => by rw [show h - y - 1 = h - 1 - y from by omega]⟩
  unfold bmpRead pathOf
  rw [hc]
  simp only [bmpFileRead_down hf (by omega) hh h1 hsz e e', Res.ok_bind, eo]

/-- A file with 8 bits per pixel, sizes `2 x 2`, two palette entries. -/
def sampleBmp8 : List Byte :=
  [0x42, 0x4d, 0, 0, 0, 0, 0, 0, 0, 0] ++ [62, 0, 0, 0] ++ [40, 0, 0, 0] ++ [2, 0, 0, 0] ++ [2, 0, 0, 0] ++
    [1, 0, 8, 0] ++ List.replicate 24 0 ++ [10, 20, 30, 0, 40, 50, 60, 0] ++ [0, 1, 0, 0] ++ [1, 1, 0, 0]

example : BmpFile sampleBmp8 8 2 2 62 40 ∧ 62 + bmpRow8 2 * 2 ≤ sampleBmp8.length ∧
    (∀ x y, x < 2 → y < 2 → 14 + 40 + 4 * (sampleBmp8.getD (62 + y * bmpRow8 2 + x) 0).toNat + 3 ≤ 62) ∧
    bgrAt sampleBmp8 (14 + 40 + 4 * (sampleBmp8.getD (62 + 0 * bmpRow8 2 + 1) 0).toNat) = ⟨60, 50, 40⟩ :=
  ⟨⟨by decide, by decide, by decide, by decide, by decide, by decide⟩, by decide,
    by intro x y hx hy; interval_cases x <;> interval_cases y <;> decide, by decide⟩

/-- The header and palette of an 8-bit file with sizes `32768 x 32768`. -/
def sampleBmp8Header : List Byte :=
  [0x42, 0x4d, 0, 0, 0, 0, 0, 0, 0, 0] ++ [62, 0, 0, 0] ++ [40, 0, 0, 0] ++ [0, 128, 0, 0] ++ [0, 128, 0, 0] ++
    [1, 0, 8, 0] ++ List.replicate 24 0 ++ [10, 20, 30, 0, 40, 50, 60, 0]

/-- Complete 8-bit files of 32768 x 32768 pixels cannot be read: undefined behaviour. -/
theorem C36_bmp8_violation (fs : Files) (name : List Char) (ext : Bool) (data : List Byte)
    (hl : data.length = 32768 * 32768)
    (hc : fs.content (if ext then name else name ++ ".bmp".toList) = some (sampleBmp8Header ++ data)) :
    BmpFile (sampleBmp8Header ++ data) 8 32768 32768 62 40 ∧
    62 + bmpRow8 32768 * 32768 ≤ (sampleBmp8Header ++ data).length ∧
    bmpRead fs name ext = .ub := by
  have hext : ".bmp".toList = bmpExt := by decide
  rw [hext] at hc
  have hh : sampleBmp8Header.length = 62 := by decide
  have hf : BmpFile (sampleBmp8Header ++ data) 8 32768 32768 62 40 := by
    refine ⟨by rw [List.length_append, hh]; omega, ?_, ?_, ?_, ?_, ?_⟩ <;>
      simp [sampleBmp8Header, leAt]
  refine ⟨hf, ?_, ?_⟩
  · rw [List.length_append, hh, hl]; norm_num [bmpRow8]
  · unfold bmpRead pathOf
    rw [hc]
    simp only [bmpFileRead_large hf (by omega) (by omega) (by norm_num), Res.ub_bind]

example : ∃ (fs : Files) (data : List Byte), data.length = 32768 * 32768 ∧
    fs.content (if true then "a".toList else "b".toList) = some (sampleBmp8Header ++ data) :=
  ⟨⟨fun _ => some (sampleBmp8Header ++ List.replicate (32768 * 32768) 1), fun _ => true⟩, _,
    List.length_replicate, rfl⟩

/-! ## C37 raw double and HSV files -/

/-- Images of bit patterns with positive sizes and less than 2^31 stored samples, whatever the buffer
returned by `malloc` contains: writing returns 0 and reading restores the image.
Missing: images with 2^31 samples and more, see `C37_double_violation`. -/
theorem C37_double_round_trip_partial (fs : Files) (name : List Char) (im : Image (BitVec 64)) (w h : Nat)
    (f : Nat → Nat → BitVec 64) (s : im.Shows w h f) (hw : 0 < w) (hh : 0 < h)
    (hsz : (w + w % 8) * h < 2 ^ 31) (junk : List (BitVec 64)) (hj : junk.length = (w + w % 8) * h)
    (hwr : fs.writable (name ++ ".dbmp".toList) = true) :
    ∃ fs', dblWrite fs junk name im = .ok (fs', 0) ∧
      dblRead fs' name false = .ok im ∧ dblRead fs' (name ++ ".dbmp".toList) true = .ok im ∧
      ∀ n, n ≠ name ++ ".dbmp".toList → fs'.content n = fs.content n := by
  have hext : ".dbmp".toList = dbmpExt := by decide
  rw [hext] at hwr ⊢
  have hrow : w + w % 8 ≤ (w + w % 8) * h := Nat.le_mul_of_pos_right _ hh
  have hcol : h ≤ (w + w % 8) * h := Nat.le_mul_of_pos_left _ (by omega)
  have hwh : w * h ≤ (w + w % 8) * h := Nat.mul_le_mul_right _ (by omega)
  obtain ⟨buf, e, r⟩ := dblFile_ok s (by omega) (by omega) junk hj
  obtain ⟨fs', e1, e2, e3, -⟩ := Files.put_writable hwr (bmpHeader (w * h + 54) w h ++ buf.flatMap dblBytes)
  have key : ∀ n ext, pathOf n dbmpExt ext = name ++ dbmpExt → dblRead fs' n ext = .ok im := by
    intro n ext hn
    obtain ⟨out, eo, so⟩ := dblRead_ok (fs := fs') (name := n) (ext := ext) (by rw [hn]; exact e2) r
      (by omega) (by omega) (by omega) (by omega)
    rw [eo, so.ext s fun _ _ _ _ => rfl]
  exact ⟨fs', by rw [dblWrite, e, Res.ok_bind, e1], key _ _ (pathOf_false _ _), key _ _ (pathOf_true _ _), e3⟩

example := C37_double_round_trip_partial ⟨fun _ => none, fun _ => true⟩ "a".toList _ 3 2 _
  (picture_shows 3 2 fun x y => BitVec.ofNat 64 (x + 10 * y)) (by decide) (by decide) (by decide)
  (List.replicate 12 5) (by decide) rfl

/-- The same for HSV images. Missing: larger images, see `C37_hsv_violation`. -/
theorem C37_hsv_round_trip_partial (fs : Files) (name : List Char) (im : Image (Px3 (BitVec 64))) (w h : Nat)
    (f : Nat → Nat → Px3 (BitVec 64)) (s : im.Shows w h f) (hw : 0 < w) (hh : 0 < h)
    (hsz : (w * 3 + w % 8) * h < 2 ^ 31) (junk : List (BitVec 64)) (hj : junk.length = (w * 3 + w % 8) * h)
    (hwr : fs.writable (name ++ ".hsv".toList) = true) :
    ∃ fs', hsvWrite fs junk name im = .ok (fs', 0) ∧
      hsvRead fs' name false = .ok im ∧ hsvRead fs' (name ++ ".hsv".toList) true = .ok im ∧
      ∀ n, n ≠ name ++ ".hsv".toList → fs'.content n = fs.content n := by
  have hext : ".hsv".toList = hsvExt := by decide
  rw [hext] at hwr ⊢
  have hrow : w * 3 + w % 8 ≤ (w * 3 + w % 8) * h := Nat.le_mul_of_pos_right _ hh
  have hcol : h ≤ (w * 3 + w % 8) * h := Nat.le_mul_of_pos_left _ (by omega)
  have hwh : w * h * 3 ≤ (w * 3 + w % 8) * h := by
    rw [show w * h * 3 = w * 3 * h from by ring]; exact Nat.mul_le_mul_right _ (by omega)
  obtain ⟨buf, e, r⟩ := hsvFile_ok s (by omega) (by omega) junk hj
  obtain ⟨fs', e1, e2, e3, -⟩ := Files.put_writable hwr (bmpHeader (w * h * 3 + 54) w h ++ buf.flatMap dblBytes)
  have key : ∀ n ext, pathOf n hsvExt ext = name ++ hsvExt → hsvRead fs' n ext = .ok im := by
    intro n ext hn
    obtain ⟨out, eo, so⟩ := hsvRead_ok (fs := fs') (name := n) (ext := ext) (by rw [hn]; exact e2) r
      (by omega) (by omega) (by omega) (by omega)
    rw [eo, so.ext s fun _ _ _ _ => rfl]
  exact ⟨fs', by rw [hsvWrite, e, Res.ok_bind, e1], key _ _ (pathOf_false _ _), key _ _ (pathOf_true _ _), e3⟩

example : (Image.ofSizes (0x3ff0000000000000#64) [5, 3]).Shows 5 3 (fun _ _ => 0x3ff0000000000000#64) ∧
    (Image.ofSizes (⟨1, 2, 3⟩ : Px3 (BitVec 64)) [5, 3]).Shows 5 3 (fun _ _ => ⟨1, 2, 3⟩) ∧
    (List.replicate 30 (7 : BitVec 64)).length = (5 + 5 % 8) * 3 ∧
    (List.replicate 60 (7 : BitVec 64)).length = (5 * 3 + 5 % 8) * 3 ∧
    (⟨fun _ => none, fun _ => true⟩ : Files).writable ("a".toList ++ ".dbmp".toList) = true :=
  ⟨ofSizes_shows _ (by omega) (by omega) (by omega), ofSizes_shows _ (by omega) (by omega) (by omega),
    by decide, by decide, rfl⟩

/-- Larger images: with 2^31 pixels and more the file is written, and reading it is undefined
behaviour (an `int` product overflows). -/
theorem C37_double_violation (fs : Files) (name : List Char) (im : Image (BitVec 64)) (w h : Nat)
    (f : Nat → Nat → BitVec 64) (s : im.Shows w h f) (hw : w + w % 8 < 2 ^ 31) (hh : h < 2 ^ 31)
    (h1 : 2 ^ 31 ≤ w * h) (junk : List (BitVec 64)) (hj : junk.length = (w + w % 8) * h)
    (hwr : fs.writable (name ++ ".dbmp".toList) = true) :
    ∃ fs', dblWrite fs junk name im = .ok (fs', 0) ∧ dblRead fs' name false = .ub := by
  have hext : ".dbmp".toList = dbmpExt := by decide
  rw [hext] at hwr
  obtain ⟨buf, e, r⟩ := dblFile_ok s hh hw junk hj
  obtain ⟨fs', e1, e2, e3, -⟩ := Files.put_writable hwr (bmpHeader (w * h + 54) w h ++ buf.flatMap dblBytes)
  refine ⟨fs', by rw [dblWrite, e, Res.ok_bind, e1], ?_⟩
  have hb := bmpHeader_file (w * h + 54) w h (buf.flatMap dblBytes) (by omega) (by omega)
  have h54 := hb.header
  unfold dblRead
  rw [pathOf_false, e2]
  simp only
  rw [le32At_eq (by omega), le32At_eq (by omega), hb.w_eq, hb.h_eq]
  simp only [Res.ok_bind]
  rw [toInt32_of_lt (by omega), toInt32_of_lt hh, if_neg (by omega), if_neg (by omega)]
  have c1 : ((w : Int) * h) = ((w * h : Nat) : Int) := by push_cast; ring
  rw [c1]
  unfold chkInt
  rw [if_neg (by omega)]; rfl

/-- The same for HSV images, from a third of that number of pixels. -/
theorem C37_hsv_violation (fs : Files) (name : List Char) (im : Image (Px3 (BitVec 64))) (w h : Nat)
    (f : Nat → Nat → Px3 (BitVec 64)) (s : im.Shows w h f) (hw : w * 3 + w % 8 < 2 ^ 31) (hh : h < 2 ^ 31)
    (h1 : 2 ^ 31 ≤ w * h * 3) (junk : List (BitVec 64)) (hj : junk.length = (w * 3 + w % 8) * h)
    (hwr : fs.writable (name ++ ".hsv".toList) = true) :
    ∃ fs', hsvWrite fs junk name im = .ok (fs', 0) ∧ hsvRead fs' name false = .ub := by
  have hext : ".hsv".toList = hsvExt := by decide
  rw [hext] at hwr
  obtain ⟨buf, e, r⟩ := hsvFile_ok s hh hw junk hj
  obtain ⟨fs', e1, e2, e3, -⟩ := Files.put_writable hwr (bmpHeader (w * h * 3 + 54) w h ++ buf.flatMap dblBytes)
  refine ⟨fs', by rw [hsvWrite, e, Res.ok_bind, e1], ?_⟩
  have hb := bmpHeader_file (w * h * 3 + 54) w h (buf.flatMap dblBytes) (by omega) (by omega)
  have h54 := hb.header
  unfold hsvRead
  rw [pathOf_false, e2]
  simp only
  rw [le32At_eq (by omega), le32At_eq (by omega), hb.w_eq, hb.h_eq]
  simp only [Res.ok_bind]
  rw [toInt32_of_lt (by omega), toInt32_of_lt hh, if_neg (by omega), if_neg (by omega)]
  have c1 : ((w : Int) * h * 3) = ((w * h * 3 : Nat) : Int) := by push_cast; ring
  rw [c1]
  unfold chkInt
  rw [if_neg (by omega)]; rfl

example : (Image.ofSizes (⟨1, 2, 3⟩ : Px3 (BitVec 64)) [32768, 65536]).Shows 32768 65536 (fun _ _ => ⟨1, 2, 3⟩) ∧
    32768 * 3 + 32768 % 8 < 2 ^ 31 ∧ 2 ^ 31 ≤ 32768 * 65536 ∧
    (List.replicate ((32768 * 3 + 32768 % 8) * 65536) (7 : BitVec 64)).length = (32768 * 3 + 32768 % 8) * 65536 :=
  ⟨ofSizes_shows _ (by norm_num) (by norm_num) (by norm_num), by norm_num, by norm_num,
    List.length_replicate⟩

/-! ## C82 the file-size field -/

/-- Widths that are multiples of four: the file-size field of a written file is its length.
Missing: other widths, for which it is wrong, see `C82_size_field_violation`. -/
theorem C82_size_field_partial (fs : Files) (name : List Char) (im : Image RGB) (w h : Nat)
    (f : Nat → Nat → RGB) (s : im.Shows w h f) (hw : bmpRow24 w < 2 ^ 31) (hh : h < 2 ^ 31)
    (h4 : 4 ∣ w) (hsz : bmpRow24 w * h + 54 < 2 ^ 32)
    (hwr : fs.writable (name ++ ".bmp".toList) = true) :
    ∃ fs' file, bmpWrite fs name im = .ok (fs', 0) ∧
      fs'.content (name ++ ".bmp".toList) = some file ∧ leAt file 2 4 = file.length := by
  have hext : ".bmp".toList = bmpExt := by decide
  rw [hext] at hwr ⊢
  rw [bmpRow24_eq] at hw hsz
  obtain ⟨buf, e, r, hpad⟩ := bmpBytes_ok s hh hw
  obtain ⟨fs', e1, e2, e3, -⟩ := Files.put_writable hwr (bmpHeader (w * h * 3 + 54) w h ++ buf)
  refine ⟨fs', _, by rw [bmpWrite, e, Res.ok_bind, e1], e2, ?_⟩
  have hw4 : w % 4 = 0 := by omega
  rw [(bmpHeader_fields _ _ _ _).1, List.length_append, bmpHeader_length, r.1]
  have : (w * 3 + w % 4) * h = w * h * 3 := by rw [hw4]; ring
  omega

example : (Image.ofSizes ⟨1, 2, 3⟩ [8, 3] : Image RGB).Shows 8 3 (fun _ _ => ⟨1, 2, 3⟩) ∧ 4 ∣ 8 ∧
    bmpRow24 8 * 3 + 54 < 2 ^ 32 :=
  ⟨ofSizes_shows _ (by omega) (by omega) (by omega), by decide, by decide⟩

/-- Every other width: the field leaves out the padding, so it is smaller than the file. -/
theorem C82_size_field_violation (fs : Files) (name : List Char) (im : Image RGB) (w h : Nat)
    (f : Nat → Nat → RGB) (s : im.Shows w h f) (hw : bmpRow24 w < 2 ^ 31) (hh : h < 2 ^ 31) (h0 : 0 < h)
    (h4 : ¬ 4 ∣ w) (hwr : fs.writable (name ++ ".bmp".toList) = true) :
    ∃ fs' file, bmpWrite fs name im = .ok (fs', 0) ∧
      fs'.content (name ++ ".bmp".toList) = some file ∧ leAt file 2 4 < file.length := by
  have hext : ".bmp".toList = bmpExt := by decide
  rw [hext] at hwr ⊢
  rw [bmpRow24_eq] at hw
  obtain ⟨buf, e, r, hpad⟩ := bmpBytes_ok s hh hw
  obtain ⟨fs', e1, e2, e3, -⟩ := Files.put_writable hwr (bmpHeader (w * h * 3 + 54) w h ++ buf)
  refine ⟨fs', _, by rw [bmpWrite, e, Res.ok_bind, e1], e2, ?_⟩
  rw [(bmpHeader_fields _ _ _ _).1, List.length_append, bmpHeader_length, r.1]
  have h1 : (w * 3 + w % 4) * h = w * h * 3 + w % 4 * h := by ring
  have h2 : 0 < w % 4 * h := Nat.mul_pos (by omega) h0
  have h3 : (w * h * 3 + 54) % 2 ^ 32 ≤ w * h * 3 + 54 := Nat.mod_le _ _
  omega

example : (Image.ofSizes ⟨1, 2, 3⟩ [5, 3] : Image RGB).Shows 5 3 (fun _ _ => ⟨1, 2, 3⟩) ∧ ¬ 4 ∣ 5 ∧
    bmpRow24 5 < 2 ^ 31 :=
  ⟨ofSizes_shows _ (by omega) (by omega) (by omega), by decide, by decide⟩

/-! ## C83 decoding of 24-bit files from other programs -/

/-- Every complete bottom-up 24-bit file smaller than 2^31 bytes of pixel data, whatever its header
size and pixel offset: pixel `(x, y)` is the stored colour of row `y`.
Missing: larger files (`C34_bmp_violation`). -/
theorem C83_bmp24_partial (fs : Files) (name : List Char) (ext : Bool) (file : List Byte) (w h off hs : Nat)
    (hc : fs.content (if ext then name else name ++ ".bmp".toList) = some file)
    (hf : BmpFile file 24 w h off hs) (hw : bmpRow24 w < 2 ^ 31) (hh : h < 2 ^ 31)
    (hsz : bmpRow24 w * h < 2 ^ 31) (hlen : off + bmpRow24 w * h ≤ file.length) :
    ∃ im, bmpRead fs name ext = .ok im ∧
      im.Shows w h fun x y => bgrAt file (off + y * bmpRow24 w + 3 * x) := by
  have hext : ".bmp".toList = bmpExt := by decide
  rw [hext] at hc
  rw [bmpRow24_eq] at *
  have hd := bmpReadDetail_24 hf (h := h) hw hlen
  have r := rawShows_drop hlen
  have hwh : w * h ≤ (w * 3 + w % 4) * h := Nat.mul_le_mul_right _ (by omega)
  obtain ⟨out, eo, so⟩ := rawToImage_ok (w := w) (h := h) (by omega) hh (by omega) r
  refine ⟨out, ?_, so⟩
  unfold bmpRead pathOf
  rw [hc]
  simp only [bmpFileRead_up hf (by omega) hh hsz hd, Res.ok_bind, eo]

/-- Top-down files (negative height field) with at least two rows: the rows are reversed.
Missing: one-row files, see `C83_bmp24_topdown_violation`. -/
theorem C83_bmp24_topdown_partial (fs : Files) (name : List Char) (ext : Bool) (file : List Byte)
    (w h off hs : Nat) (hc : fs.content (if ext then name else name ++ ".bmp".toList) = some file)
    (hf : BmpFile file 24 w (2 ^ 32 - h) off hs) (hw : bmpRow24 w < 2 ^ 31) (hh : h < 2 ^ 31) (h1 : 1 < h)
    (hsz : bmpRow24 w * h < 2 ^ 31) (hlen : off + bmpRow24 w * h ≤ file.length) :
    ∃ im, bmpRead fs name ext = .ok im ∧
      im.Shows w h fun x y => bgrAt file (off + (h - 1 - y) * bmpRow24 w + 3 * x) := by
  have hext : ".bmp".toList = bmpExt := by decide
  rw [hext] at hc
  rw [bmpRow24_eq] at *
  have hd := bmpReadDetail_24 hf (h := h) hw hlen
  obtain ⟨data', e', r'⟩ := flipRaw_ok (rawShows_drop hlen)
  have hwh : w * h ≤ (w * 3 + w % 4) * h := Nat.mul_le_mul_right _ (by omega)
  obtain ⟨out, eo, so⟩ := rawToImage_ok (w := w) (h := h) (by omega) hh (by omega) r'
  refine ⟨out, ?_, so.congr fun x y _ _ => by rw [show h - y - 1 = h - 1 - y from by omega]⟩
  unfold bmpRead pathOf
  rw [hc]
  simp only [bmpFileRead_down hf (by omega) hh h1 hsz hd e', Res.ok_bind, eo]

/-- A top-down file of 1 x 2 pixels (header fields as stored by other programs). -/
def sampleBmp24 (height : List Byte) : List Byte :=
  [0x42, 0x4d, 0, 0, 0, 0, 0, 0, 0, 0] ++ [54, 0, 0, 0] ++ [40, 0, 0, 0] ++ [1, 0, 0, 0] ++ height ++
    [1, 0, 24, 0] ++ List.replicate 24 0 ++ [10, 20, 30, 0] ++ [40, 50, 60, 0]

example : BmpFile (sampleBmp24 [0xfe, 0xff, 0xff, 0xff]) 24 1 (2 ^ 32 - 2) 54 40 ∧
    BmpFile (sampleBmp24 [2, 0, 0, 0]) 24 1 2 54 40 ∧
    54 + bmpRow24 1 * 2 ≤ (sampleBmp24 [2, 0, 0, 0]).length ∧
    54 + bmpRow24 1 * 2 ≤ (sampleBmp24 [0xfe, 0xff, 0xff, 0xff]).length ∧
    bgrAt (sampleBmp24 [2, 0, 0, 0]) (54 + 0 * bmpRow24 1 + 3 * 0) = ⟨30, 20, 10⟩ :=
  ⟨⟨by decide, by decide, by decide, by decide, by decide, by decide⟩,
   ⟨by decide, by decide, by decide, by decide, by decide, by decide⟩, by decide, by decide, by decide⟩

/-- A top-down file with one row (height field -1) reads as an image without pixels. -/
theorem C83_bmp24_topdown_violation (fs : Files) (name : List Char) (ext : Bool) (file : List Byte)
    (bits w off hs : Nat) (hc : fs.content (if ext then name else name ++ ".bmp".toList) = some file)
    (hf : BmpFile file bits w (2 ^ 32 - 1) off hs) (hw : w < 2 ^ 31) :
    ∃ im, bmpRead fs name ext = .ok im ∧ im.Shows 0 0 fun _ _ => ⟨0, 0, 0⟩ := by
  have hext : ".bmp".toList = bmpExt := by decide
  rw [hext] at hc
  have h54 := hf.header
  have hr : bmpFileRead file = .ok (0, 0, []) := by
    unfold bmpFileRead
    rw [le32At_eq (by omega), le32At_eq (by omega), hf.w_eq, hf.h_eq]
    simp only [Res.ok_bind]
    rw [toInt32_of_lt hw, toInt32_neg (by omega) (by omega), if_pos (by omega)]
  obtain ⟨out, eo, so⟩ := rawToImage_ok (buf := []) (w := 0) (h := 0) (f := fun _ _ => ⟨0, 0, 0⟩)
    (by omega) (by omega) (by omega) ⟨rfl, by intros; omega⟩
  refine ⟨out, ?_, so⟩
  unfold bmpRead pathOf
  rw [hc]
  simp only [hr, Res.ok_bind, eo]

example : BmpFile (sampleBmp24 [0xff, 0xff, 0xff, 0xff]) 24 1 (2 ^ 32 - 1) 54 40 :=
  ⟨by decide, by decide, by decide, by decide, by decide, by decide⟩

example := C36_bmp8_partial ⟨fun _ => some sampleBmp8, fun _ => true⟩ "a".toList false sampleBmp8 2 2 62 40 rfl
  ⟨by decide, by decide, by decide, by decide, by decide, by decide⟩ (by decide) (by decide) (by decide) (by decide)
  (by decide) (by decide) (by intro x y hx hy; interval_cases x <;> interval_cases y <;> decide)

example := C83_bmp24_partial ⟨fun _ => some (sampleBmp24 [2, 0, 0, 0]), fun _ => true⟩ "a.bmp".toList true
  (sampleBmp24 [2, 0, 0, 0]) 1 2 54 40 rfl ⟨by decide, by decide, by decide, by decide, by decide, by decide⟩ (by decide)
  (by decide) (by decide) (by decide)

end TinyDIP.Props
