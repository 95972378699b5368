import Verif.Spec.ReadDuring
import Verif.Props.TwoRuns

/-!
# C203: a BMP file that another program replaces while it is read
-/

namespace TinyDIP.Props

open TinyDIP TinyDIP.Cli Image Crash

/-- The file does not change: the picture read is that of `bmp_read`. -/
theorem C203_unchanged (fs : Files) (name : List Char) (ext : Bool) :
    let now := fs.content (if ext then name else name ++ ".bmp".toList)
    bmpReadDuring now now now now = bmpRead fs name ext := by
  have hp : (if ext then name else name ++ ".bmp".toList) = pathOf name bmpExt ext := by
    rw [show ".bmp".toList = bmpExt by decide]; cases ext <;> rfl
  intro now
  have hn : now = fs.content (pathOf name bmpExt ext) := by rw [← hp]
  rw [hn]
  unfold bmpReadDuring bmpRead
  cases h : fs.content (pathOf name bmpExt ext) with
  | none => rfl
  | some file =>
    simp only
    congr 1
    unfold bmpFileReadDuring bmpFileRead sizeField bmpReadDetailOpt
    simp only
    cases le32At file 18 with
    | ok x =>
      cases le32At file 22 with
      | ok y => simp only [Res.ok_bind]
      | throw e => simp only [Res.ok_bind, Res.throw_bind]
      | ub => simp only [Res.ok_bind, Res.ub_bind]
    | throw e => rfl
    | ub => rfl

theorem freadInto_any {hdr buf : List Byte} (hh : hdr.length = 54) (n : Nat) :
    freadInto (List.replicate n 255) (hdr ++ buf) 54 n = .ok (buf.take n ++ List.replicate (n - buf.length) 255) := by
  unfold freadInto
  rw [List.drop_left' hh]
  have hl : (buf.take n).length = min n buf.length := List.length_take
  rw [if_pos (by rw [hl]; simp), hl, List.drop_replicate]
  congr 3
  omega

/-- What is read when the width comes from a file of width `w`, the height from one of height `h` and the data from any
24-bit file of the program. -/
theorem read_during {o fx fy : List Byte} {n n1 n2 w w2 w3 h h1 h3 : Nat} {b1 b2 buf : List Byte}
    (ex : fx = bmpHeader n1 w h1 ++ b1) (ey : fy = bmpHeader n2 w2 h ++ b2) (h1l : h1 < 2 ^ 31) (w2l : w2 < 2 ^ 31)
    (w3l : w3 < 2 ^ 31) (h3l : h3 < 2 ^ 31) (hw : 0 < w) (hh : 0 < h) (hsz : (w * 3 + w % 4) * h < 2 ^ 31)
    {f : Nat → Nat → RGB} (r : RawShows (buf.take ((w * 3 + w % 4) * h) ++
      List.replicate ((w * 3 + w % 4) * h - buf.length) 255) w h (w % 4) f) :
    ∃ out, bmpReadDuring (some o) (some fx) (some fy) (some (bmpHeader n w3 h3 ++ buf)) = .ok out ∧
      out.Shows w h f := by
  have hrow : w * 3 + w % 4 ≤ (w * 3 + w % 4) * h := Nat.le_mul_of_pos_right _ hh
  have hcol : h ≤ (w * 3 + w % 4) * h := Nat.le_mul_of_pos_left _ (by omega)
  have hwh : w * h ≤ (w * 3 + w % 4) * h := Nat.mul_le_mul_right _ (by omega)
  have hfx := bmpHeader_file n1 w h1 b1 (by omega) (by omega)
  have hfy := bmpHeader_file n2 w2 h b2 (by omega) (by omega)
  have hf := bmpHeader_file n w3 h3 buf (by omega) (by omega)
  have h54x := hfx.header
  have h54y := hfy.header
  obtain ⟨out, eo, so⟩ := rawToImage_ok (by omega) (by omega) (by omega) r
  refine ⟨out, ?_, so⟩
  have c2 : ((w : Int) * 3 + ((w % 4 : Nat) : Int)) = ((w * 3 + w % 4 : Nat) : Int) := by push_cast; ring
  have e1 : (w : Int).toNat = w := by omega
  have e2 : (h : Int).natAbs = h := by omega
  unfold bmpReadDuring bmpFileReadDuring sizeField bmpReadDetailOpt
  simp only
  rw [ex, ey, le32At_eq (by omega), le32At_eq (by omega), hfx.w_eq, hfy.h_eq]
  simp only [Res.ok_bind]
  rw [toInt32_of_lt (by omega), toInt32_of_lt (by omega), if_neg (by omega), if_neg (by omega),
    e1, e2, fillingBytes_nat (by omega), if_neg (by omega), if_neg (by omega),
    bmpReadDetail_eq hf _ _ (by omega), if_pos rfl, c2, chkInt_ok (by omega) (by omega), Res.ok_bind,
    Int.toNat_natCast, freadInto_any (bmpHeader_length _ _ _), Res.ok_bind, if_neg (by omega), Res.ok_bind]
  exact eo

theorem bmpOf_bytes {bytes : List Byte} {w h : Nat} {f : Nat → Nat → RGB} (hb : BmpOf bytes w h f) :
    ∃ buf, bytes = bmpHeader (w * h * 3 + 54) w h ++ buf ∧ RawShows buf w h (w % 4) f ∧
      w < 2 ^ 31 ∧ h < 2 ^ 31 ∧ (w * 3 + w % 4) * h < 2 ^ 31 := by
  obtain ⟨hw, hh, hsz, fs, fs', name, im, s, h1, h2⟩ := hb
  rw [bmpRow24_eq] at hsz
  have hrow : w * 3 + w % 4 ≤ (w * 3 + w % 4) * h := Nat.le_mul_of_pos_right _ hh
  have hcol : h ≤ (w * 3 + w % 4) * h := Nat.le_mul_of_pos_left _ (by omega)
  obtain ⟨buf, e, r, -⟩ := bmpBytes_ok s (by omega) (by omega)
  rw [show ".bmp".toList = bmpExt by decide] at h2
  rw [bmpWrite, e, Res.ok_bind] at h1
  have := put_content (Res.ok.inj h1)
  rw [h2] at this
  exact ⟨buf, Option.some.inj this, r, by omega, by omega, hsz⟩

/-- The file holds pictures of the same size each time it is opened: the picture read is the one it holds at the last
opening. Missing: pictures of different sizes, see `C203_size_violation`, and a file that is removed, see
`C203_removed_violation`. -/
theorem C203_same_size_partial (o bx bY bd : List Byte) (w h : Nat) (fx fy fd : Nat → Nat → RGB)
    (hx : BmpOf bx w h fx) (hy : BmpOf bY w h fy) (hd : BmpOf bd w h fd) :
    ∃ out, bmpReadDuring (some o) (some bx) (some bY) (some bd) = .ok out ∧ out.Shows w h fd := by
  obtain ⟨b1, e1, -, w1, h1, -⟩ := bmpOf_bytes hx
  obtain ⟨b2, e2, -⟩ := bmpOf_bytes hy
  obtain ⟨b3, e3, r, -, -, hsz⟩ := bmpOf_bytes hd
  rw [e3]
  refine read_during e1 e2 h1 w1 w1 h1 hx.1 hx.2.1 hsz ?_
  rw [← r.1, List.take_length, Nat.sub_self, List.replicate_zero, List.append_nil]
  exact r

/-- Another program puts a picture of another width and height in the place of the file after the width was read: the
picture read has the width of the one and the height of the other, and no error is reported. -/
theorem C203_size_violation (old new : List Byte) (w h w' h' : Nat) (f f' : Nat → Nat → RGB)
    (ho : BmpOf old w h f) (hn : BmpOf new w' h' f') (hw : w ≠ w') (hh : h ≠ h')
    (hsz : bmpRow24 w * h' < 2 ^ 31) :
    ∃ out, bmpReadDuring (some old) (some old) (some new) (some new) = .ok out ∧ (∃ g, out.Shows w h' g) ∧
      (∀ im, im.Shows w h f → out ≠ im) ∧ ∀ im, im.Shows w' h' f' → out ≠ im := by
  obtain ⟨b1, e1, r1, w1, h1, s1⟩ := bmpOf_bytes ho
  obtain ⟨b2, e2, r2, w2, h2, s2⟩ := bmpOf_bytes hn
  rw [bmpRow24_eq] at hsz
  have r : ∃ g : Nat → Nat → RGB, RawShows (b2.take ((w * 3 + w % 4) * h') ++
      List.replicate ((w * 3 + w % 4) * h' - b2.length) 255) w h' (w % 4) g := by
    let b := b2.take ((w * 3 + w % 4) * h') ++ List.replicate ((w * 3 + w % 4) * h' - b2.length) (255 : Byte)
    have hl : b.length = (w * 3 + w % 4) * h' := by
      show (b2.take _ ++ List.replicate _ _).length = _
      rw [List.length_append, List.length_take, List.length_replicate]
      omega
    refine ⟨fun x y => ⟨b.getD (rawIdx w (w % 4) x y 0) 0, b.getD (rawIdx w (w % 4) x y 1) 0,
      b.getD (rawIdx w (w % 4) x y 2) 0⟩, hl, fun x y c hx hy hc => ?_⟩
    have hlt := rawIdx_lt (fb := w % 4) (c := c) hx hy
    have g : b[rawIdx w (w % 4) x y c]? = some (b.getD (rawIdx w (w % 4) x y c) 0) := by
      rw [List.getD_eq_getElem?_getD, List.getElem?_eq_getElem (by omega)]; rfl
    have hc' : c = 0 ∨ c = 1 ∨ c = 2 := by omega
    rcases hc' with rfl | rfl | rfl <;> exact g
  obtain ⟨g, r⟩ := r
  obtain ⟨out, eo, so⟩ := read_during (o := old) (n := w' * h' * 3 + 54) e1 e2 h1 w2 w2 h2 ho.1 hn.2.1 hsz r
  rw [← e2] at eo
  refine ⟨out, eo, ⟨g, so⟩, fun im s e => ?_, fun im s e => ?_⟩
  · subst e
    have := so.height.symm.trans s.height
    omega
  · subst e
    have := so.width.symm.trans s.width
    omega

/-- The file is removed while it is read: before the sizes are read the result is a picture without pixels, before the
data is read it is a white picture. No error is reported. -/
theorem C203_removed_violation (o : List Byte) :
    (∃ out f, bmpReadDuring (some o) none none none = .ok out ∧ out.Shows 0 0 f) ∧
    ∀ (b : List Byte) (w h : Nat) (f : Nat → Nat → RGB), BmpOf b w h f →
      (∃ out g, bmpReadDuring (some o) (some b) none none = .ok out ∧ out.Shows 0 0 g) ∧
      ∃ out, bmpReadDuring (some o) (some b) (some b) none = .ok out ∧
        out.Shows w h fun _ _ => (⟨255, 255, 255⟩ : RGB) := by
  have r0 : RawShows ([] : List Byte) 0 0 (0 % 4) fun _ _ => (⟨0, 0, 0⟩ : RGB) :=
    ⟨rfl, fun x y c hx => absurd hx (Nat.not_lt_zero x)⟩
  obtain ⟨out0, eo0, so0⟩ := rawToImage_ok (by decide) (by decide) (by decide) r0
  refine ⟨⟨out0, _, ?_, so0⟩, fun b w h f hb => ⟨⟨out0, _, ?_, so0⟩, ?_⟩⟩
  · unfold bmpReadDuring bmpFileReadDuring
    simp only [sizeField, Res.ok_bind]
    rw [if_pos (Or.inl trivial), Res.ok_bind]
    exact eo0
  · obtain ⟨b1, e1, -, w1, h1, s1⟩ := bmpOf_bytes hb
    have hf := bmpHeader_file (w * h * 3 + 54) w h b1 (by omega) (by omega)
    have h54 := hf.header
    unfold bmpReadDuring bmpFileReadDuring sizeField
    rw [e1]
    simp only
    rw [le32At_eq (by omega)]
    simp only [Res.ok_bind]
    rw [if_pos (Or.inr trivial), Res.ok_bind]
    exact eo0
  · obtain ⟨b1, e1, -, w1, h1, s1⟩ := bmpOf_bytes hb
    have hf := bmpHeader_file (w * h * 3 + 54) w h b1 (by omega) (by omega)
    have h54 := hf.header
    have hwh : w * h ≤ (w * 3 + w % 4) * h := Nat.mul_le_mul_right _ (by omega)
    have r : RawShows (List.replicate ((w * 3 + w % 4) * h) (255 : Byte)) w h (w % 4)
        fun _ _ => (⟨255, 255, 255⟩ : RGB) := by
      refine ⟨List.length_replicate, fun x y c hx hy hc => ?_⟩
      rw [List.getElem?_replicate, if_pos (rawIdx_lt hx hy)]
      have hc' : c = 0 ∨ c = 1 ∨ c = 2 := by omega
      rcases hc' with rfl | rfl | rfl <;> rfl
    obtain ⟨out, eo, so⟩ := rawToImage_ok (by omega) (by omega) (by omega) r
    refine ⟨out, ?_, so⟩
    have q1 : (w : Int).toNat = w := by omega
    have q2 : (h : Int).natAbs = h := by omega
    unfold bmpReadDuring bmpFileReadDuring sizeField bmpReadDetailOpt
    rw [e1]
    simp only
    rw [le32At_eq (by omega), le32At_eq (by omega), hf.w_eq, hf.h_eq]
    simp only [Res.ok_bind]
    rw [toInt32_of_lt (by omega), toInt32_of_lt (by omega), if_neg (by omega), if_neg (by omega),
      q1, q2, fillingBytes_nat (by omega), if_neg (by omega), if_neg (by omega), if_neg (by omega), Res.ok_bind]
    exact eo

/-- Files for these theorems. -/
theorem bmpOf_example (w h : Nat) (f : Nat → Nat → RGB) (s : (picture w h f).Shows w h f) (hw : 0 < w) (hh : 0 < h)
    (hsz : bmpRow24 w * h < 2 ^ 31) : ∃ b, BmpOf b w h f := by
  have hrow : bmpRow24 w ≤ bmpRow24 w * h := Nat.le_mul_of_pos_right _ hh
  have hcol : h ≤ bmpRow24 w * h := Nat.le_mul_of_pos_left _ (by rw [bmpRow24_eq]; omega)
  obtain ⟨_, fs', b, -, h2, h3, -⟩ := C192_bmp_partial ⟨fun _ => none, fun _ => true⟩ "a".toList _ w h _ s
    (by omega) (by omega) rfl
  exact ⟨b, hw, hh, hsz, _, fs', "a".toList, _, s, h2, h3⟩

example : ∃ b b' out, BmpOf b 3 2 (fun _ _ => ⟨1, 2, 3⟩) ∧ BmpOf b' 3 2 (fun x _ => ⟨BitVec.ofNat 8 x, 2, 3⟩) ∧
    bmpReadDuring (some b) (some b) (some b) (some b') = .ok out ∧
    out.Shows 3 2 fun x _ => ⟨BitVec.ofNat 8 x, 2, 3⟩ := by
  obtain ⟨b, hb⟩ := bmpOf_example 3 2 (fun _ _ => ⟨1, 2, 3⟩) (picture_shows 3 2 _) (by decide) (by decide) (by decide)
  obtain ⟨b', hb'⟩ := bmpOf_example 3 2 (fun x _ => ⟨BitVec.ofNat 8 x, 2, 3⟩) (picture_shows 3 2 _) (by decide) (by decide) (by decide)
  obtain ⟨out, h1, h2⟩ := C203_same_size_partial b b b b' 3 2 _ _ _ hb hb hb'
  exact ⟨b, b', out, hb, hb', h1, h2⟩

example : ∃ b b' out g, BmpOf b 3 2 (fun _ _ => ⟨1, 2, 3⟩) ∧ BmpOf b' 2 5 (fun x _ => ⟨BitVec.ofNat 8 x, 2, 3⟩) ∧
    bmpReadDuring (some b) (some b) (some b') (some b') = .ok out ∧ out.Shows 3 5 g := by
  obtain ⟨b, hb⟩ := bmpOf_example 3 2 (fun _ _ => ⟨1, 2, 3⟩) (picture_shows 3 2 _) (by decide) (by decide) (by decide)
  obtain ⟨b', hb'⟩ := bmpOf_example 2 5 (fun x _ => ⟨BitVec.ofNat 8 x, 2, 3⟩) (picture_shows 2 5 _) (by decide) (by decide) (by decide)
  obtain ⟨out, h1, ⟨g, h2⟩, -⟩ := C203_size_violation b b' 3 2 2 5 _ _ hb hb' (by decide) (by decide) (by decide)
  exact ⟨b, b', out, g, hb, hb', h1, h2⟩

example : ∃ b out, BmpOf b 3 2 (fun _ _ => ⟨1, 2, 3⟩) ∧
    bmpReadDuring (some b) (some b) (some b) none = .ok out ∧ out.Shows 3 2 fun _ _ => ⟨255, 255, 255⟩ := by
  obtain ⟨b, hb⟩ := bmpOf_example 3 2 (fun _ _ => ⟨1, 2, 3⟩) (picture_shows 3 2 _) (by decide) (by decide) (by decide)
  obtain ⟨out, h1, h2⟩ := ((C203_removed_violation b).2 b 3 2 _ hb).2
  exact ⟨b, out, hb, h1, h2⟩

end TinyDIP.Props
