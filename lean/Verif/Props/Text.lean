import Verif.Lemmas.Samples
import Verif.Lemmas.Text

/-!
# Properties C38-C40, C84: text image files
-/

namespace TinyDIP.Props

open TinyDIP TinyDIP.Cli TinyDIP.Text Image

/-! ## C38 Plain PNM write then read -/

theorem blank_sp : Blank ' ' := by unfold Blank; decide
theorem blank_nl : Blank '\n' := by unfold Blank; decide

theorem header_pairs (magic : Str) (hm : Word magic) (w h : Nat) (l : List (Str × Char))
    (hl : ∀ p ∈ l, Word p.1 ∧ Blank p.2) {body : Str} (hb : body = l.flatMap fun p => p.1 ++ [p.2]) :
    PnmText (magic :: toStr w :: toStr h :: l.map Prod.fst)
      (magic ++ ['\n'] ++ toStr w ++ [' '] ++ toStr h ++ ['\n'] ++ body) := by
  have := text_pairs ((magic, '\n') :: (toStr w, ' ') :: (toStr h, '\n') :: l) (by
    intro p hp
    simp only [List.mem_cons] at hp
    rcases hp with rfl | rfl | rfl | hp
    · exact ⟨hm, blank_nl⟩
    · exact ⟨word_toStr _, blank_sp⟩
    · exact ⟨word_toStr _, blank_nl⟩
    · exact hl p hp) (PnmText.nil [] .nil)
  subst hb
  simpa using this

theorem shifted_byte (b : Byte) : shifted (b.toNat : Int) (8 - (Nat.log2 (255 + 1 : Int).toNat : Int)) = b := by
  have h : Nat.log2 (255 + 1 : Int).toNat = 8 := by decide
  rw [h]
  unfold shifted
  simp

theorem word_P1 : Word sP1 := ⟨by decide, by unfold Blank; decide, by decide⟩
theorem word_P2 : Word sP2 := ⟨by decide, by unfold Blank; decide, by decide⟩
theorem word_P3 : Word sP3 := ⟨by decide, by unfold Blank; decide, by decide⟩

/-- Every RGB image that fits in memory (three bytes per pixel): the plain PPM file written for it is
read back as the same image, for every schedule of the reading loop. -/
theorem C38_ppm_round_trip (im : Image RGB) (w h : Nat) (f : Nat → Nat → RGB) (s : im.Shows w h f)
    (hmem : w * h * 3 < 2 ^ 64) (sched : List Nat → List Nat) (hs : Fair sched) :
    ∃ file, pnmWrite im "P3".toList 255 = .ok file ∧ pnmRead sched (some file) 8 = .ok im := by
  rw [show "P3".toList = sP3 by decide]
  refine ⟨_, pnmWrite_eq s (Or.inr (Or.inr rfl)) 255, ?_⟩
  let g : Nat × Nat → List Int := fun p =>
    [((f p.1 (h - 1 - p.2)).c0.toNat : Int), ((f p.1 (h - 1 - p.2)).c1.toNat : Int),
      ((f p.1 (h - 1 - p.2)).c2.toNat : Int)]
  let pr : Nat × Nat → List (Str × Char) := fun p =>
    [(toStr (f p.1 (h - 1 - p.2)).c0.toNat, ' '), (toStr (f p.1 (h - 1 - p.2)).c1.toNat, ' '),
      (toStr (f p.1 (h - 1 - p.2)).c2.toNat, '\n')]
  have ht := header_pairs sP3 word_P3 w h ((intStr 255, '\n') :: (iterYX w h).flatMap pr) (by
      intro p hp
      rcases List.mem_cons.1 hp with rfl | hp
      · exact ⟨word_intStr 255, blank_nl⟩
      · obtain ⟨q, -, hq⟩ := List.mem_flatMap.1 hp
        simp only [pr, List.mem_cons, List.not_mem_nil, or_false] at hq
        rcases hq with rfl | rfl | rfl
        · exact ⟨word_toStr _, blank_sp⟩
        · exact ⟨word_toStr _, blank_sp⟩
        · exact ⟨word_toStr _, blank_nl⟩)
    (body := intStr 255 ++ ['\n'] ++ (iterYX w h).flatMap fun p => pnmPixelText sP3 (f p.1 (h - 1 - p.2))) (by
      rw [List.flatMap_cons, List.flatMap_assoc]
      refine congrArg _ (List.flatMap_congr fun p _ => ?_)
      unfold pnmPixelText
      rw [if_neg (by decide), if_neg (by decide), if_pos rfl]
      simp [pr])
  have hmap : ((iterYX w h).flatMap pr).map Prod.fst = ((iterYX w h).flatMap g).map intStr := by
    rw [List.map_flatMap, List.map_flatMap]
    refine List.flatMap_congr fun p _ => ?_
    simp only [pr, g, List.map_cons, List.map_nil, intStr_ofNat]
  rw [List.map_cons, hmap] at ht
  obtain ⟨out, e, so⟩ := pnmRead_p3 hs (outbits := 8) (max := 255) (vs := (iterYX w h).flatMap g) (ts := [])
    (s := sP3 ++ ['\n'] ++ toStr w ++ [' '] ++ toStr h ++ ['\n'] ++
      (intStr 255 ++ ['\n'] ++ (iterYX w h).flatMap fun p => pnmPixelText sP3 (f p.1 (h - 1 - p.2))))
    s.w_lt s.h_lt hmem (by omega) (by omega) (by omega) (by omega) (by simpa using ht)
    (by simp [List.length_flatMap, g, iterYX_len])
    (by
      intro v hv
      obtain ⟨q, -, hq⟩ := List.mem_flatMap.1 hv
      simp only [g, List.mem_cons, List.not_mem_nil, or_false] at hq
      have h1 := (f q.1 (h - 1 - q.2)).c0.isLt
      have h2 := (f q.1 (h - 1 - q.2)).c1.isLt
      have h3 := (f q.1 (h - 1 - q.2)).c2.isLt
      rcases hq with rfl | rfl | rfl <;> omega)
  rw [if_pos (by decide)]
  rw [← List.append_assoc] at e
  rw [e]
  refine congrArg Res.ok (so.ext s fun x y hx hy => ?_)
  have h0 := getD_flatMap3 g (fun _ => rfl) (iterYX w h) _ 0 (by omega) (iterYX_get' hx hy)
  have h1 := getD_flatMap3 g (fun _ => rfl) (iterYX w h) _ 1 (by omega) (iterYX_get' hx hy)
  have h2 := getD_flatMap3 g (fun _ => rfl) (iterYX w h) _ 2 (by omega) (iterYX_get' hx hy)
  rw [Nat.add_zero] at h0
  have hy' : h - 1 - (h - 1 - y) = y := by omega
  simp only [h0, h1, h2, g, hy', List.getD_cons_zero, List.getD_cons_succ, shifted_byte]

example := C38_ppm_round_trip _ 3 2 _ (picture_shows 3 2 fun x y => (⟨BitVec.ofNat 8 x, BitVec.ofNat 8 y, 200⟩ : RGB))
  (by decide) List.reverse (fun l => l.reverse_perm)

/-- The same for the grey format: the first channel survives, in all three channels. -/
theorem C38_pgm_round_trip (im : Image RGB) (w h : Nat) (f : Nat → Nat → RGB) (s : im.Shows w h f)
    (sched : List Nat → List Nat) (hs : Fair sched) :
    ∃ file out, pnmWrite im "P2".toList 255 = .ok file ∧ pnmRead sched (some file) 8 = .ok out ∧
      out.Shows w h (fun x y => ⟨(f x y).c0, (f x y).c0, (f x y).c0⟩) := by
  rw [show "P2".toList = sP2 by decide]
  have ht := header_pairs sP2 word_P2 w h ((intStr 255, '\n') ::
      (iterYX w h).map fun p => (toStr (f p.1 (h - 1 - p.2)).c0.toNat, '\n')) (by
      intro p hp
      rcases List.mem_cons.1 hp with rfl | hp
      · exact ⟨word_intStr 255, blank_nl⟩
      · obtain ⟨q, -, rfl⟩ := List.mem_map.1 hp
        exact ⟨word_toStr _, blank_nl⟩)
    (body := intStr 255 ++ ['\n'] ++ (iterYX w h).flatMap fun p => pnmPixelText sP2 (f p.1 (h - 1 - p.2))) (by
      rw [List.flatMap_cons, List.flatMap_map]
      refine congrArg _ (List.flatMap_congr fun p _ => ?_)
      unfold pnmPixelText
      rw [if_neg (by decide), if_pos rfl])
  have hmap : ((iterYX w h).map fun p => (toStr (f p.1 (h - 1 - p.2)).c0.toNat, '\n')).map Prod.fst
      = ((iterYX w h).map fun p => ((f p.1 (h - 1 - p.2)).c0.toNat : Int)).map intStr := by
    rw [List.map_map, List.map_map]
    refine List.map_congr_left fun p _ => ?_
    simp only [Function.comp, intStr_ofNat]
  rw [List.map_cons, hmap] at ht
  obtain ⟨out, e, so⟩ := pnmRead_p2 hs (outbits := 8) (max := 255)
    (vs := (iterYX w h).map fun p => ((f p.1 (h - 1 - p.2)).c0.toNat : Int)) (ts := [])
    (s := sP2 ++ ['\n'] ++ toStr w ++ [' '] ++ toStr h ++ ['\n'] ++
      (intStr 255 ++ ['\n'] ++ (iterYX w h).flatMap fun p => pnmPixelText sP2 (f p.1 (h - 1 - p.2))))
    s.w_lt s.h_lt s.fits (by omega) (by omega) (by omega) (by omega) (by simpa using ht)
    (by simp [iterYX_len])
    (by
      intro v hv
      obtain ⟨q, -, rfl⟩ := List.mem_map.1 hv
      have h1 := (f q.1 (h - 1 - q.2)).c0.isLt
      omega)
  refine ⟨_, out, pnmWrite_eq s (Or.inr (Or.inl rfl)) 255, ?_, so.congr fun x y hx hy => ?_⟩
  · rw [if_pos (by decide)]
    rw [← List.append_assoc] at e
    exact e
  · have hy' : h - 1 - (h - 1 - y) = y := by omega
    simp only [List.getD_eq_getElem?_getD, List.getElem?_map, iterYX_get' hx hy, Option.map_some,
      Option.getD_some, hy', shifted_byte]

example := C38_pgm_round_trip _ 3 2 _ (picture_shows 3 2 fun x y => (⟨BitVec.ofNat 8 x, BitVec.ofNat 8 y, 200⟩ : RGB))
  List.reverse (fun l => l.reverse_perm)

/-- The same for the bitmap format: a pixel reads back as 1 when its first channel was not zero, and
as 0 when it was. -/
theorem C38_pbm_round_trip (im : Image RGB) (w h : Nat) (f : Nat → Nat → RGB) (s : im.Shows w h f)
    (max : Int) (sched : List Nat → List Nat) (hs : Fair sched) :
    ∃ file out, pnmWrite im "P1".toList max = .ok file ∧ pnmRead sched (some file) 8 = .ok out ∧
      out.Shows w h (fun x y => if (f x y).c0 ≠ 0 then ⟨1, 1, 1⟩ else ⟨0, 0, 0⟩) := by
  rw [show "P1".toList = sP1 by decide]
  let b : RGB → Nat := fun p => if p.c0 = 0 then 1 else 0
  have hd0 : toStr 0 = ['0'] := by decide
  have hd1 : toStr 1 = ['1'] := by decide
  have ht := header_pairs sP1 word_P1 w h
      ((iterYX w h).map fun p => (toStr (b (f p.1 (h - 1 - p.2))), '\n')) (by
      intro p hp
      obtain ⟨q, -, rfl⟩ := List.mem_map.1 hp
      exact ⟨word_toStr _, blank_nl⟩)
    (body := (iterYX w h).flatMap fun p => pnmPixelText sP1 (f p.1 (h - 1 - p.2))) (by
      rw [List.flatMap_map]
      refine List.flatMap_congr fun p _ => ?_
      unfold pnmPixelText
      rw [if_pos rfl]
      simp only [b]
      split
      · rw [hd1]
      · rw [hd0])
  have hmap : ((iterYX w h).map fun p => (toStr (b (f p.1 (h - 1 - p.2))), '\n')).map Prod.fst
      = ((iterYX w h).map fun p => (b (f p.1 (h - 1 - p.2)) : Int)).map intStr := by
    rw [List.map_map, List.map_map]
    refine List.map_congr_left fun p _ => ?_
    simp only [Function.comp, intStr_ofNat]
  rw [hmap] at ht
  obtain ⟨out, e, so⟩ := pnmRead_p1 hs (outbits := 8)
    (vs := (iterYX w h).map fun p => (b (f p.1 (h - 1 - p.2)) : Int)) (ts := [])
    (s := sP1 ++ ['\n'] ++ toStr w ++ [' '] ++ toStr h ++ ['\n'] ++
      (iterYX w h).flatMap fun p => pnmPixelText sP1 (f p.1 (h - 1 - p.2)))
    s.w_lt s.h_lt s.fits (by omega) (by omega) (by simpa using ht)
    (by simp [iterYX_len])
    (by
      intro v hv
      obtain ⟨q, -, rfl⟩ := List.mem_map.1 hv
      simp only [b]
      split <;> simp)
  refine ⟨_, out, pnmWrite_eq s (Or.inl rfl) max, ?_, so.congr fun x y hx hy => ?_⟩
  · rw [if_neg (by decide), List.append_nil]
    exact e
  · have hy' : h - 1 - (h - 1 - y) = y := by omega
    simp only [List.getD_eq_getElem?_getD, List.getElem?_map, iterYX_get' hx hy, Option.map_some,
      Option.getD_some, hy', b]
    by_cases hz : (f x y).c0 = 0
    · simp [hz]
    · simp [hz]

/-- An image for these theorems, and a schedule that is not the order of the program. -/
example : (Image.ofSizes ⟨1, 2, 3⟩ [5, 3] : Image RGB).Shows 5 3 (fun _ _ => ⟨1, 2, 3⟩) ∧
    Fair List.reverse :=
  ⟨ofSizes_shows _ (by omega) (by omega) (by omega), fun l => l.reverse_perm⟩

/-! ## C39 Tokens, white space and comments -/

/-- Two texts with the same tokens, whatever white space and comments stand between them, are read
with the same result: the same image, or the same failure.
Missing: a comment that follows a token without white space, see `C39_glued_comment_violation`. -/
theorem C39_separators_partial (ts : List Str) (s s' : Str) (h : PnmText ts s) (h' : PnmText ts s')
    (sched : List Nat → List Nat) (outbits : Int) :
    pnmRead sched (some s) outbits = pnmRead sched (some s') outbits :=
  pnmRead_text sched outbits h h'

/-- A comment directly after a token is not recognised: the same tokens, read with a comment after
white space, give an image; with the comment directly after the width they give an exception. -/
theorem C39_glued_comment_violation :
    (∃ im, pnmRead id (some "P1\n1 #a b\n1\n0\n".toList) 8 = .ok im) ∧
      pnmRead id (some "P1\n1#a b\n1\n0\n".toList) 8 = .throw .invalidArg := by
  have t : ∀ t : Str, ∀ r : Str, Word t → (r = [] ∨ ∃ c r', r = c :: r' ∧ Blank c) → pnmToken (t ++ r) = (t, r) :=
    fun _ _ a b => pnmToken_word a b
  constructor
  · obtain ⟨out, e, -⟩ := pnmRead_p1 (sched := id) (fun l => List.Perm.refl _) (outbits := 8) (w := 1) (h := 1)
      (vs := [0]) (ts := []) (s := "P1\n1 #a b\n1\n0\n".toList) (by omega) (by omega) (by omega) (by omega)
      (by omega) (by
        have h0 : toStr 1 = ['1'] := by decide
        have h1 : intStr 0 = ['0'] := by decide
        have a4 : PnmText [] "\n".toList := .nil _ (.blank _ _ (by unfold Blank; decide) .nil)
        have a3 : PnmText [['0']] "\n0\n".toList :=
          .cons "\n".toList ['0'] _ _ (.blank _ _ (by unfold Blank; decide) .nil)
            ⟨by decide, by unfold Blank; decide, by decide⟩ a4 (Or.inr ⟨_, _, rfl, by unfold Blank; decide⟩)
        have a2 : PnmText [['1'], ['0']] " #a b\n1\n0\n".toList :=
          .cons " #a b\n".toList ['1'] _ _ (.blank _ _ (by unfold Blank; decide)
            (.comment "a b".toList [] (by decide) .nil))
            ⟨by decide, by unfold Blank; decide, by decide⟩ a3 (Or.inr ⟨_, _, rfl, by unfold Blank; decide⟩)
        have a1 : PnmText [['1'], ['1'], ['0']] "\n1 #a b\n1\n0\n".toList :=
          .cons "\n".toList ['1'] _ _ (.blank _ _ (by unfold Blank; decide) .nil)
            ⟨by decide, by unfold Blank; decide, by decide⟩ a2 (Or.inr ⟨_, _, rfl, by unfold Blank; decide⟩)
        have a0 : PnmText [sP1, ['1'], ['1'], ['0']] "P1\n1 #a b\n1\n0\n".toList :=
          .cons [] sP1 _ _ .nil word_P1 a1 (Or.inr ⟨_, _, rfl, by unfold Blank; decide⟩)
        simpa [h0, h1] using a0) (by simp) (by simp)
    exact ⟨out, e⟩
  · have e1 : pnmToken "P1\n1#a b\n1\n0\n".toList = (sP1, "\n1#a b\n1\n0\n".toList) :=
      t sP1 _ word_P1 (Or.inr ⟨_, _, rfl, by unfold Blank; decide⟩)
    have e2 : pnmToken "\n1#a b\n1\n0\n".toList = ("1#a".toList, " b\n1\n0\n".toList) := by
      have := pnmToken_sep (sep := "\n".toList) (.blank _ _ (by unfold Blank; decide) .nil) ("1#a".toList ++ " b\n1\n0\n".toList)
      refine Eq.trans ?_ (this.trans (t _ _ ⟨by decide, by unfold Blank; decide, by decide⟩
        (Or.inr ⟨' ', "b\n1\n0\n".toList, by decide, by unfold Blank; decide⟩)))
      congr 1
    have e3 : pnmToken " b\n1\n0\n".toList = ("b".toList, "\n1\n0\n".toList) := by
      have := pnmToken_sep (sep := " ".toList) (.blank _ _ (by unfold Blank; decide) .nil) ("b".toList ++ "\n1\n0\n".toList)
      refine Eq.trans ?_ (this.trans (t _ _ ⟨by decide, by unfold Blank; decide, by decide⟩
        (Or.inr ⟨'\n', "1\n0\n".toList, by decide, by unfold Blank; decide⟩)))
      congr 1
    have s1 : stoull "1#a".toList = .ok 1 := by decide +kernel
    have s2 : stoull "b".toList = .throw .invalidArg := by decide +kernel
    simp only [pnmRead, e1, e2, e3, s1, s2]
    simp

/-- Two different texts with the same tokens. -/
example : PnmText [['P', '1'], ['7']] "P1 7".toList ∧
    PnmText [['P', '1'], ['7']] "#x\nP1\t # 8 9\n\n7 # end".toList := by
  constructor
  · exact .cons [] ['P', '1'] _ _ .nil word_P1
      (.cons [' '] ['7'] [] [] (.blank _ _ (by unfold Blank; decide) .nil)
        ⟨by decide, by unfold Blank; decide, by decide⟩ (.nil _ .nil) (Or.inl rfl))
      (Or.inr ⟨_, _, rfl, by unfold Blank; decide⟩)
  · exact .cons ['#', 'x', '\n'] ['P', '1'] _ _ (.comment ['x'] [] (by decide) .nil) word_P1
      (.cons "\t # 8 9\n\n".toList ['7'] " # end".toList []
        (.blank _ _ (by unfold Blank; decide) (.blank _ _ (by unfold Blank; decide)
          (.comment " 8 9".toList ['\n'] (by decide) (.blank _ _ (by unfold Blank; decide) .nil))))
        ⟨by decide, by unfold Blank; decide, by decide⟩
        (.openComment [' '] " end".toList (.blank _ _ (by unfold Blank; decide) .nil) (by decide))
        (Or.inr ⟨_, _, rfl, by unfold Blank; decide⟩))
      (Or.inr ⟨_, _, rfl, by unfold Blank; decide⟩)

/-! ## C84 What a plain PPM file means -/

/-- Samples of `k` bits scaled to eight bits. -/
theorem shifted_samples (k : Nat) (vs : List Nat) (hv : ∀ v ∈ vs, v < 2 ^ k) (j : Nat) (hj : j < vs.length) :
    (shifted ((vs.map fun n : Nat => (n : Int)).getD j 0) (8 - (k : Int))).toNat
      = vs.getD j 0 * 2 ^ 8 / 2 ^ k := by
  have h2k : 0 < 2 ^ k := Nat.pow_pos (by omega)
  have hb := hv vs[j] (List.getElem_mem hj)
  simp only [List.getD_eq_getElem?_getD, List.getElem?_map, List.getElem?_eq_getElem hj, Option.map_some,
    Option.getD_some]
  generalize vs[j] = v at hb
  unfold shifted
  by_cases h8 : k ≤ 8
  · rw [if_pos (by omega)]
    have e1 : (8 - (k : Int)).toNat = 8 - k := by omega
    have e2 : 2 ^ (8 - k) * 2 ^ k = 2 ^ 8 := by rw [← Nat.pow_add]; congr 1; omega
    have e3 : v * 2 ^ 8 / 2 ^ k = v * 2 ^ (8 - k) := by
      rw [← e2, ← Nat.mul_assoc, Nat.mul_div_cancel _ h2k]
    have e4 : v * 2 ^ (8 - k) < 2 ^ 8 := by
      rw [← e2, Nat.mul_comm]
      exact Nat.mul_lt_mul_of_pos_left hb (Nat.pow_pos (by omega))
    rw [e1, e3]
    have e5 : (v : Int) * 2 ^ (8 - k) = ((v * 2 ^ (8 - k) : Nat) : Int) := by push_cast; rfl
    rw [e5, BitVec.ofInt_natCast, BitVec.toNat_ofNat, Nat.mod_eq_of_lt e4]
  · rw [if_neg (by omega)]
    have e1 : (-(8 - (k : Int))).toNat = k - 8 := by omega
    have e2 : 2 ^ (k - 8) * 2 ^ 8 = 2 ^ k := by rw [← Nat.pow_add]; congr 1; omega
    have e3 : v * 2 ^ 8 / 2 ^ k = v / 2 ^ (k - 8) := by
      rw [← e2, Nat.mul_div_mul_right _ _ (by decide)]
    have e4 : v / 2 ^ (k - 8) < 2 ^ 8 := by
      rw [Nat.div_lt_iff_lt_mul (Nat.pow_pos (by omega)), Nat.mul_comm, e2]
      exact hb
    rw [e1, e3]
    have e5 : (v : Int) / 2 ^ (k - 8) = ((v / 2 ^ (k - 8) : Nat) : Int) := by push_cast; rfl
    rw [e5, BitVec.ofInt_natCast, BitVec.toNat_ofNat, Nat.mod_eq_of_lt e4]

/-- A plain PPM file with the maximum value `2 ^ k - 1` and any separators: the samples, row by row
from the top (the row with the greatest `y`), three per pixel, scaled from `k` bits to eight bits by a
shift. -/
theorem C84_ppm_samples (k w h : Nat) (hk : 1 ≤ k) (hk' : k ≤ 16) (hw : w < 2 ^ 64) (hh : h < 2 ^ 64)
    (hmem : w * h * 3 < 2 ^ 64) (vs : List Nat) (hl : vs.length = w * h * 3) (hv : ∀ v ∈ vs, v < 2 ^ k)
    (s : Str)
    (ht : PnmText ("P3".toList :: toStr w :: toStr h :: toStr (2 ^ k - 1) :: vs.map toStr) s)
    (sched : List Nat → List Nat) (hs : Fair sched) :
    ∃ out f, pnmRead sched (some s) 8 = .ok out ∧ out.Shows w h f ∧
      ∀ x y, x < w → y < h → ∀ i, i = (h - 1 - y) * w + x →
        (f x y).c0.toNat = vs.getD (3 * i) 0 * 2 ^ 8 / 2 ^ k ∧
        (f x y).c1.toNat = vs.getD (3 * i + 1) 0 * 2 ^ 8 / 2 ^ k ∧
        (f x y).c2.toNat = vs.getD (3 * i + 2) 0 * 2 ^ 8 / 2 ^ k := by
  have h2k : 0 < 2 ^ k := Nat.pow_pos (by omega)
  have hle : 2 ^ k ≤ 2 ^ 16 := Nat.pow_le_pow_right (by omega) hk'
  rw [show "P3".toList = sP3 by decide] at ht
  obtain ⟨out, e, so⟩ := pnmRead_p3 hs (outbits := 8) (max := ((2 ^ k - 1 : Nat) : Int))
    (vs := vs.map fun n : Nat => (n : Int)) (ts := []) (s := s) hw hh hmem (by omega) (by omega) (by omega) (by omega)
    (by
      rw [intStr_ofNat, List.append_nil, List.map_map]
      have : (intStr ∘ fun n : Nat => (n : Int)) = toStr := by funext n; exact intStr_ofNat n
      rw [this]; exact ht)
    (by simpa using hl)
    (by
      intro v hv'
      obtain ⟨n, hn, rfl⟩ := List.mem_map.1 hv'
      have := hv n hn
      omega)
  have hlog : Nat.log2 (((2 ^ k - 1 : Nat) : Int) + 1).toNat = k := by
    rw [show (((2 ^ k - 1 : Nat) : Int) + 1).toNat = 2 ^ k by omega, Nat.log2_two_pow]
  rw [hlog] at so
  refine ⟨out, _, e, so, ?_⟩
  have key : ∀ j, j < vs.length → (shifted ((vs.map fun n : Nat => (n : Int)).getD j 0) (8 - (k : Int))).toNat
      = vs.getD j 0 * 2 ^ 8 / 2 ^ k := shifted_samples k vs hv
  intro x y hx hy i hi
  subst hi
  have hlt : (h - 1 - y) * w + x < w * h := by
    have h1 : (h - 1 - y + 1) * w ≤ h * w := Nat.mul_le_mul_right _ (by omega)
    rw [Nat.add_mul, Nat.one_mul] at h1
    rw [Nat.mul_comm w h]; omega
  rw [Nat.mul_comm 3]
  exact ⟨key _ (by omega), key _ (by omega), key _ (by omega)⟩

/-- A 1 x 1 file with four-bit samples. -/
example : PnmText ("P3".toList :: toStr 1 :: toStr 1 :: toStr (2 ^ 4 - 1) :: [1, 2, 15].map toStr)
    "P3 1 1 15 1 2 15 ".toList := by
  have := text_pairs [("P3".toList, ' '), (toStr 1, ' '), (toStr 1, ' '), (toStr 15, ' '), (toStr 1, ' '),
    (toStr 2, ' '), (toStr 15, ' ')] (by
      intro p hp
      simp only [List.mem_cons, List.not_mem_nil, or_false] at hp
      rcases hp with rfl | rfl | rfl | rfl | rfl | rfl | rfl
      · exact ⟨word_P3, by unfold Blank; decide⟩
      · exact ⟨word_toStr 1, blank_sp⟩
      · exact ⟨word_toStr 1, blank_sp⟩
      · exact ⟨word_toStr 15, blank_sp⟩
      · exact ⟨word_toStr 1, blank_sp⟩
      · exact ⟨word_toStr 2, blank_sp⟩
      · exact ⟨word_toStr 15, blank_sp⟩) (PnmText.nil [] .nil)
  have h1 : toStr 1 = ['1'] := by decide
  have h2 : toStr 2 = ['2'] := by decide
  have h3 : toStr 15 = ['1', '5'] := by decide
  simpa [h1, h2, h3] using this

/-- A plain PGM file with the maximum value `2 ^ k - 1`: one sample per pixel, the same for the three
channels. -/
theorem C84_pgm_samples (k w h : Nat) (hk : 1 ≤ k) (hk' : k ≤ 16) (hw : w < 2 ^ 64) (hh : h < 2 ^ 64)
    (hmem : w * h < 2 ^ 64) (vs : List Nat) (hl : vs.length = w * h) (hv : ∀ v ∈ vs, v < 2 ^ k)
    (s : Str)
    (ht : PnmText ("P2".toList :: toStr w :: toStr h :: toStr (2 ^ k - 1) :: vs.map toStr) s)
    (sched : List Nat → List Nat) (hs : Fair sched) :
    ∃ out f, pnmRead sched (some s) 8 = .ok out ∧ out.Shows w h f ∧
      ∀ x y, x < w → y < h → ∀ i, i = (h - 1 - y) * w + x →
        (f x y).c0.toNat = vs.getD i 0 * 2 ^ 8 / 2 ^ k ∧ (f x y).c1 = (f x y).c0 ∧ (f x y).c2 = (f x y).c0 := by
  have h2k : 0 < 2 ^ k := Nat.pow_pos (by omega)
  have hle : 2 ^ k ≤ 2 ^ 16 := Nat.pow_le_pow_right (by omega) hk'
  rw [show "P2".toList = sP2 by decide] at ht
  obtain ⟨out, e, so⟩ := pnmRead_p2 hs (outbits := 8) (max := ((2 ^ k - 1 : Nat) : Int))
    (vs := vs.map fun n : Nat => (n : Int)) (ts := []) (s := s) hw hh hmem (by omega) (by omega) (by omega) (by omega)
    (by
      rw [intStr_ofNat, List.append_nil, List.map_map]
      have : (intStr ∘ fun n : Nat => (n : Int)) = toStr := by funext n; exact intStr_ofNat n
      rw [this]; exact ht)
    (by simpa using hl)
    (by
      intro v hv'
      obtain ⟨n, hn, rfl⟩ := List.mem_map.1 hv'
      have := hv n hn
      omega)
  have hlog : Nat.log2 (((2 ^ k - 1 : Nat) : Int) + 1).toNat = k := by
    rw [show (((2 ^ k - 1 : Nat) : Int) + 1).toNat = 2 ^ k by omega, Nat.log2_two_pow]
  rw [hlog] at so
  refine ⟨out, _, e, so, ?_⟩
  intro x y hx hy i hi
  subst hi
  have hlt : (h - 1 - y) * w + x < w * h := by
    have h1 : (h - 1 - y + 1) * w ≤ h * w := Nat.mul_le_mul_right _ (by omega)
    rw [Nat.add_mul, Nat.one_mul] at h1
    rw [Nat.mul_comm w h]; omega
  exact ⟨shifted_samples k vs hv _ (by omega), rfl, rfl⟩

/-- A plain PBM file: a sample 1 is black, any other pixel is white, white being the value 1. -/
theorem C84_pbm_samples (w h : Nat) (hw : w < 2 ^ 64) (hh : h < 2 ^ 64) (hmem : w * h < 2 ^ 64) (vs : List Nat)
    (hl : vs.length = w * h) (hv : ∀ v ∈ vs, v < 2) (s : Str)
    (ht : PnmText ("P1".toList :: toStr w :: toStr h :: vs.map toStr) s)
    (sched : List Nat → List Nat) (hs : Fair sched) :
    ∃ out f, pnmRead sched (some s) 8 = .ok out ∧ out.Shows w h f ∧
      ∀ x y, x < w → y < h → ∀ i, i = (h - 1 - y) * w + x →
        f x y = if vs.getD i 0 = 1 then ⟨0, 0, 0⟩ else ⟨1, 1, 1⟩ := by
  rw [show "P1".toList = sP1 by decide] at ht
  obtain ⟨out, e, so⟩ := pnmRead_p1 hs (outbits := 8)
    (vs := vs.map fun n : Nat => (n : Int)) (ts := []) (s := s) hw hh hmem (by omega) (by omega)
    (by
      rw [List.append_nil, List.map_map]
      have : (intStr ∘ fun n : Nat => (n : Int)) = toStr := by funext n; exact intStr_ofNat n
      rw [this]; exact ht)
    (by simpa using hl)
    (by
      intro v hv'
      obtain ⟨n, hn, rfl⟩ := List.mem_map.1 hv'
      have := hv n hn
      omega)
  refine ⟨out, _, e, so, ?_⟩
  intro x y hx hy i hi
  subst hi
  have hlt : (h - 1 - y) * w + x < w * h := by
    have h1 : (h - 1 - y + 1) * w ≤ h * w := Nat.mul_le_mul_right _ (by omega)
    rw [Nat.add_mul, Nat.one_mul] at h1
    rw [Nat.mul_comm w h]; omega
  generalize (h - 1 - y) * w + x = j at hlt
  have hj : j < vs.length := by omega
  have hb := hv vs[j] (List.getElem_mem hj)
  simp only [List.getD_eq_getElem?_getD, List.getElem?_map, List.getElem?_eq_getElem hj, Option.map_some,
    Option.getD_some]
  generalize vs[j] = v at hb
  obtain rfl | rfl : v = 0 ∨ v = 1 := by omega
  · rfl
  · rfl

/-- A 2 x 1 file with eight-bit samples, and one with single bits. -/
example : PnmText ("P2".toList :: toStr 2 :: toStr 1 :: toStr (2 ^ 8 - 1) :: [7, 255].map toStr)
      "P2\n2 1\n255\n7\n255\n".toList ∧
    PnmText ("P1".toList :: toStr 2 :: toStr 1 :: [0, 1].map toStr) "P1\n2 1\n0 1\n".toList := by
  have h0 : toStr 0 = ['0'] := by decide
  have h1 : toStr 1 = ['1'] := by decide
  have h2 : toStr 2 = ['2'] := by decide
  have h7 : toStr 7 = ['7'] := by decide
  have h3 : toStr 255 = ['2', '5', '5'] := by decide
  constructor
  · have := text_pairs [("P2".toList, '\n'), (toStr 2, ' '), (toStr 1, '\n'), (toStr 255, '\n'), (toStr 7, '\n'),
      (toStr 255, '\n')] (by
        intro p hp
        simp only [List.mem_cons, List.not_mem_nil, or_false] at hp
        rcases hp with rfl | rfl | rfl | rfl | rfl | rfl
        · exact ⟨word_P2, blank_nl⟩
        · exact ⟨word_toStr 2, blank_sp⟩
        · exact ⟨word_toStr 1, blank_nl⟩
        · exact ⟨word_toStr 255, blank_nl⟩
        · exact ⟨word_toStr 7, blank_nl⟩
        · exact ⟨word_toStr 255, blank_nl⟩) (PnmText.nil [] .nil)
    simpa [h1, h2, h3, h7] using this
  · have := text_pairs [("P1".toList, '\n'), (toStr 2, ' '), (toStr 1, '\n'), (toStr 0, ' '), (toStr 1, '\n')] (by
        intro p hp
        simp only [List.mem_cons, List.not_mem_nil, or_false] at hp
        rcases hp with rfl | rfl | rfl | rfl | rfl
        · exact ⟨word_P1, blank_nl⟩
        · exact ⟨word_toStr 2, blank_sp⟩
        · exact ⟨word_toStr 1, blank_nl⟩
        · exact ⟨word_toStr 0, blank_sp⟩
        · exact ⟨word_toStr 1, blank_nl⟩) (PnmText.nil [] .nil)
    simpa [h0, h1, h2] using this

/-- With a maximum value that is not of the form `2 ^ k - 1` samples wrap around: the brightest value of a
PGM file with the maximum value 100 becomes 144, darker than the sample 63, which becomes 252. -/
theorem C84_maximum_violation :
    ∃ out f, pnmRead id (some "P2 2 1 100 63 100 ".toList) 8 = .ok out ∧ out.Shows 2 1 f ∧
      (f 0 0).c0 = 252 ∧ (f 1 0).c0 = 144 := by
  have ht := text_pairs [("P2".toList, ' '), (toStr 2, ' '), (toStr 1, ' '), (intStr 100, ' '), (intStr 63, ' '),
    (intStr 100, ' ')] (by
      intro p hp
      simp only [List.mem_cons, List.not_mem_nil, or_false] at hp
      rcases hp with rfl | rfl | rfl | rfl | rfl | rfl
      · exact ⟨word_P2, by unfold Blank; decide⟩
      · exact ⟨word_toStr 2, blank_sp⟩
      · exact ⟨word_toStr 1, blank_sp⟩
      · exact ⟨word_intStr 100, blank_sp⟩
      · exact ⟨word_intStr 63, blank_sp⟩
      · exact ⟨word_intStr 100, blank_sp⟩) (PnmText.nil [] .nil)
  obtain ⟨out, e, so⟩ := pnmRead_p2 (sched := id) (fun l => List.Perm.refl _) (outbits := 8) (max := 100)
    (w := 2) (h := 1) (vs := [63, 100]) (ts := []) (s := "P2 2 1 100 63 100 ".toList) (by omega) (by omega)
    (by omega) (by omega) (by omega) (by omega) (by omega) (by
      have h1 : toStr 1 = ['1'] := by decide
      have h2 : toStr 2 = ['2'] := by decide
      have h3 : intStr 100 = ['1', '0', '0'] := by decide
      have h4 : intStr 63 = ['6', '3'] := by decide
      simpa [h1, h2, h3, h4, sP2] using ht) rfl (by decide)
  exact ⟨out, _, e, so, by decide +kernel, by decide +kernel⟩

/-- A file with fewer samples than the header announces raises `runtime_error`. -/
theorem C84_missing_samples (max w h : Nat) (hm : max < 2 ^ 31 - 1) (hw : w < 2 ^ 64) (hh : h < 2 ^ 64)
    (hmem : w * h * 3 < 2 ^ 64) (vs : List Nat) (hl : vs.length < w * h * 3) (hv : ∀ v ∈ vs, v < 2 ^ 31)
    (s : Str) (ht : PnmText ("P3".toList :: toStr w :: toStr h :: toStr max :: vs.map toStr) s)
    (sched : List Nat → List Nat) : pnmRead sched (some s) 8 = .throw .runtime := by
  rw [show "P3".toList = sP3 by decide] at ht
  have hmap : vs.map toStr = (vs.map fun n : Nat => (n : Int)).map intStr := by
    rw [List.map_map]
    exact List.map_congr_left fun n _ => (intStr_ofNat n).symm
  rw [hmap] at ht
  obtain ⟨rest, r1, r2⟩ := pnmRead_header (sched := sched) (outbits := 8) (magic := sP3) (max := (max : Int))
    (ts := (vs.map fun n : Nat => (n : Int)).map intStr) (s := s) (Or.inr (Or.inr rfl)) hw hh (by omega) (by omega)
    (fun h => absurd h (by decide)) (by omega) (by omega)
    (by rw [if_neg (by decide), intStr_ofNat]; exact ht)
  rw [if_pos rfl, wmul_of_lt (show w * h < 2 ^ 64 by omega), wmul_of_lt hmem,
    pnmSamples_short _ r1 (by
      intro v hv'
      obtain ⟨n, hn, rfl⟩ := List.mem_map.1 hv'
      have := hv n hn
      omega) (by simpa using hl), Res.throw_bind] at r2
  exact r2

theorem stoi_large {n : Nat} (h : 2 ^ 31 ≤ n) : stoi (toStr n) = .throw .outOfRange := by
  unfold stoi
  simp only [signDigits_toStr, toStr_ne_nil, if_false, digitsVal_toStr, Bool.false_eq_true]
  rw [if_neg (by omega)]

theorem stoi_nodigit {t : Str} {c : Char} {r : Str} (h : t = c :: r) (h1 : isSpace c = false) (h2 : c ≠ '-')
    (h3 : c ≠ '+') (h4 : c.isDigit = false) : stoi t = .throw .invalidArg := by
  have : (signDigits t).2 = [] := by
    subst h
    have hd : (c :: r).dropWhile isSpace = c :: r := by simp [List.dropWhile, h1]
    unfold signDigits
    simp only [hd]
    split
    · rename_i e; injection e with e1; exact absurd e1 h2
    · rename_i e; injection e with e1; exact absurd e1 h3
    · simp [List.takeWhile, h4]
  unfold stoi
  simp only [this, if_true]

/-- A sample that is too large for an `int` raises `out_of_range`, and a word that does not begin with a sign or a
digit raises `invalid_argument`, wherever it stands among the samples and whatever follows. -/
theorem C84_bad_sample (max w h : Nat) (hm : max < 2 ^ 31 - 1) (hw : w < 2 ^ 64) (hh : h < 2 ^ 64)
    (hmem : w * h * 3 < 2 ^ 64) (vs : List Nat) (hl : vs.length < w * h * 3) (hv : ∀ v ∈ vs, v < 2 ^ 31)
    (t : Str) (ts : List Str) (s : Str)
    (ht : PnmText ("P3".toList :: toStr w :: toStr h :: toStr max :: (vs.map toStr ++ t :: ts)) s)
    (sched : List Nat → List Nat) :
    (∀ n, 2 ^ 31 ≤ n → t = toStr n → pnmRead sched (some s) 8 = .throw .outOfRange) ∧
    (∀ c r, t = c :: r → ¬ Blank c → c ≠ '-' → c ≠ '+' → c.isDigit = false →
      pnmRead sched (some s) 8 = .throw .invalidArg) := by
  have key : ∀ e, t ≠ [] → stoi t = .throw e → pnmRead sched (some s) 8 = .throw e := by
    intro e hne hte
    rw [show "P3".toList = sP3 by decide] at ht
    have hmap : vs.map toStr = (vs.map fun n : Nat => (n : Int)).map intStr := by
      rw [List.map_map]
      exact List.map_congr_left fun n _ => (intStr_ofNat n).symm
    rw [hmap] at ht
    obtain ⟨rest, r1, r2⟩ := pnmRead_header (sched := sched) (outbits := 8) (magic := sP3) (max := (max : Int))
      (ts := (vs.map fun n : Nat => (n : Int)).map intStr ++ t :: ts) (s := s) (Or.inr (Or.inr rfl)) hw hh (by omega)
      (by omega) (fun h => absurd h (by decide)) (by omega) (by omega)
      (by rw [if_neg (by decide), intStr_ofNat]; exact ht)
    rw [if_pos rfl, wmul_of_lt (show w * h < 2 ^ 64 by omega), wmul_of_lt hmem,
      pnmSamples_bad _ r1 (by
        intro v hv'
        obtain ⟨n, hn, rfl⟩ := List.mem_map.1 hv'
        have := hv n hn
        omega) hne hte (by simpa using hl), Res.throw_bind] at r2
    exact r2
  refine ⟨fun n hn e => ?_, fun c r e hb h2 h3 h4 => ?_⟩
  · subst e
    exact key _ (toStr_ne_nil n) (stoi_large hn)
  · refine key _ (by rw [e]; simp) (stoi_nodigit e ?_ h2 h3 h4)
    rw [← Bool.not_eq_true, isSpace_iff]
    exact hb

example : pnmRead id (some "P3 1 1 255 7 x 9 ".toList) 8 = .throw .invalidArg := by
  have ht := text_pairs [("P3".toList, ' '), (toStr 1, ' '), (toStr 1, ' '), (toStr 255, ' '), (toStr 7, ' '),
    (['x'], ' '), (toStr 9, ' ')] (by
      intro p hp
      simp only [List.mem_cons, List.not_mem_nil, or_false] at hp
      rcases hp with rfl | rfl | rfl | rfl | rfl | rfl | rfl
      · exact ⟨word_P3, blank_sp⟩
      · exact ⟨word_toStr 1, blank_sp⟩
      · exact ⟨word_toStr 1, blank_sp⟩
      · exact ⟨word_toStr 255, blank_sp⟩
      · exact ⟨word_toStr 7, blank_sp⟩
      · exact ⟨⟨by simp, by unfold Blank; decide, by decide⟩, blank_sp⟩
      · exact ⟨word_toStr 9, blank_sp⟩) (PnmText.nil [] .nil)
  refine (C84_bad_sample 255 1 1 (by omega) (by omega) (by omega) (by omega) [7] (by simp) (by simp)
    ['x'] [toStr 9] _ ?_ id).2 'x' [] rfl (by unfold Blank; decide) (by decide) (by decide) (by decide)
  have h1 : toStr 1 = ['1'] := by decide
  have h3 : toStr 255 = ['2', '5', '5'] := by decide
  have h4 : toStr 7 = ['7'] := by decide
  have h5 : toStr 9 = ['9'] := by decide
  simpa [h1, h3, h4, h5] using ht

/-- A file that cannot be opened and a wrong magic number raise `runtime_error`. -/
theorem C84_ppm_failures (sched : List Nat → List Nat) (outbits : Int) :
    pnmRead sched none outbits = .throw .runtime ∧
    (∀ (t : Str) (ts : List Str) (s : Str), PnmText (t :: ts) s →
      t ≠ "P1".toList → t ≠ "P2".toList → t ≠ "P3".toList →
      pnmRead sched (some s) outbits = .throw .runtime) := by
  refine ⟨rfl, fun t ts s h h1 h2 h3 => ?_⟩
  obtain ⟨m1, -⟩ := pnmToken_text h
  rw [List.headD_cons] at m1
  simp only [pnmRead, m1]
  rw [if_pos ⟨h1, h2, h3⟩]

/-! ## C40 CSV -/

/-- Images with at least one pixel and integer elements (not characters): written and read back in
any schedules of the two row loops, the image is the same.
Missing: character elements, see `C40_u8_violation`; `double`s, see the theorems below; images without
pixels, see `C40_empty_violation`. -/
theorem C40_integers_partial (lo hi : Int) (im : Image Int) (w h : Nat) (f : Nat → Nat → Int)
    (s : im.Shows w h f) (hw : 0 < w) (hh : 0 < h)
    (hr : ∀ x y, x < w → y < h → lo ≤ f x y ∧ f x y ≤ hi)
    (sched sched' : List Nat → List Nat) (hs : Fair sched) (hs' : Fair sched') :
    ∃ file, csvWrite sched intStr im = .ok file ∧
      csvRead sched' (parseIntCell lo hi) 0 (some file) = .ok im := by
  refine ⟨_, csvWrite_eq s intStr hs, ?_⟩
  obtain ⟨out, e, so⟩ := csvRead_eq hw hh s.w_lt s.h_lt s.fits (fun x y => intStr (f x y)) f
    (parseIntCell lo hi) 0 (fun x y _ _ => intStr_cell _)
    (fun x y hx hy => parseIntCell_intStr (hr x y hx hy).1 (hr x y hx hy).2) hs'
  rw [e]
  exact congrArg Res.ok (so.ext s fun _ _ _ _ => rfl)

example := C40_integers_partial (-128) 127 _ 3 2 _ (picture_shows 3 2 fun x y => 10 * (x : Int) - 100 * y)
  (by decide) (by decide) (fun x y hx hy => by omega) List.reverse id (fun l => l.reverse_perm) (fun l => .refl l)

/-- `double` elements with the default format: whole values of at most six digits come back. Missing: other values,
see `C40_double_violation`. -/
theorem C40_whole_doubles_partial (im : Image ℚ) (w h : Nat) (n : Nat → Nat → Int)
    (s : im.Shows w h (fun x y => (n x y : ℚ))) (hw : 0 < w) (hh : 0 < h)
    (hr : ∀ x y, x < w → y < h → (n x y).natAbs < 10 ^ 6)
    (sched sched' : List Nat → List Nat) (hs : Fair sched) (hs' : Fair sched') :
    ∃ file, csvWrite sched fmtDefault im = .ok file ∧ csvRead sched' stod 0 (some file) = .ok im := by
  refine ⟨_, csvWrite_eq s fmtDefault hs, ?_⟩
  obtain ⟨out, e, so⟩ := csvRead_eq hw hh s.w_lt s.h_lt s.fits (fun x y => fmtDefault (n x y : ℚ))
    (fun x y => (n x y : ℚ)) stod 0
    (fun x y hx hy => by simp only [fmtDefault_int (hr x y hx hy)]; exact intStr_cell _)
    (fun x y hx hy => by simp only [fmtDefault_int (hr x y hx hy)]; exact stod_intStr _) hs'
  rw [e]
  exact congrArg Res.ok (so.ext s fun _ _ _ _ => rfl)

example := C40_whole_doubles_partial _ 3 2 _ (picture_shows 3 2 fun x y => ((100000 * (x : Int) - y : Int) : ℚ))
  (by decide) (by decide) (fun x y hx hy => by omega) List.reverse id (fun l => l.reverse_perm) (fun l => .refl l)

/-- `double` elements written with a number of decimal places: sizes come back, and every cell is within half a unit
of the last place. Missing: the exact values. -/
theorem C40_fixed_doubles_partial (p : Nat) (im : Image ℚ) (w h : Nat) (f : Nat → Nat → ℚ)
    (s : im.Shows w h f) (hw : 0 < w) (hh : 0 < h)
    (sched sched' : List Nat → List Nat) (hs : Fair sched) (hs' : Fair sched') :
    ∃ file out g, csvWrite sched (fmtFixed p) im = .ok file ∧ csvRead sched' stod 0 (some file) = .ok out ∧
      out.Shows w h g ∧ (∀ x y, |g x y - f x y| ≤ 1 / 2 / 10 ^ p) ∧
      ∀ x y (m : Int), f x y = m / 10 ^ p → g x y = f x y := by
  obtain ⟨out, e, so⟩ := csvRead_eq hw hh s.w_lt s.h_lt s.fits (fun x y => fmtFixed p (f x y))
    (fun x y => fixedValue p (f x y)) stod 0 (fun x y _ _ => fmtFixed_cell _ _)
    (fun x y _ _ => stod_fixed _ _) hs'
  exact ⟨_, out, _, csvWrite_eq s (fmtFixed p) hs, e, so, fun x y => fixedValue_near p _,
    fun x y m hm => by rw [hm]; exact fixedValue_exact p m⟩

example := C40_fixed_doubles_partial 2 _ 3 2 _ (picture_shows 3 2 fun x y => (x : ℚ) / 3 - y)
  (by decide) (by decide) List.reverse id (fun l => l.reverse_perm) (fun l => .refl l)

/-- The default format keeps six digits: 1234567 comes back as 1234570. -/
theorem C40_double_violation :
    csvWrite id fmtDefault (⟨[1, 1], [1234567]⟩ : Image ℚ) = .ok "1.23457e+06\n".toList ∧
      csvRead id stod 0 (some "1.23457e+06\n".toList) = .ok ⟨[1, 1], [1234570]⟩ := by
  constructor <;> decide +kernel

/-- An image of bytes is written as characters, so a comma is lost: 44 comes back as 0. -/
theorem C40_u8_violation :
    csvWrite id fmtU8 (⟨[1, 1], [44]⟩ : Image Byte) = .ok ",\n".toList ∧
      csvRead id parseU8Cell 0 (some ",\n".toList) = .ok ⟨[1, 1], [0]⟩ := by
  constructor <;> decide +kernel

/-- The sizes of an image without pixels are lost: it comes back as the default image. -/
theorem C40_empty_violation (fmt : ℚ → Str) :
    csvWrite id fmt (⟨[0, 2], []⟩ : Image ℚ) = .ok "\n\n".toList ∧
      csvRead id stod 0 (some "\n\n".toList) = .ok Image.default := by
  constructor
  · rfl
  · decide +kernel

/-- Images for these theorems. -/
example : (Image.ofSizes (-7) [5, 3] : Image Int).Shows 5 3 (fun _ _ => -7) ∧
    (Image.ofSizes (5 / 4) [5, 3] : Image ℚ).Shows 5 3 (fun _ _ => 5 / 4) ∧
    (Image.ofSizes ((-999999 : Int) : ℚ) [5, 3] : Image ℚ).Shows 5 3 (fun _ _ => ((-999999 : Int) : ℚ)) :=
  ⟨ofSizes_shows _ (by omega) (by omega) (by omega), ofSizes_shows _ (by omega) (by omega) (by omega),
    ofSizes_shows _ (by omega) (by omega) (by omega)⟩

/-- An image that is not two-dimensional and a file that cannot be opened raise `runtime_error`. -/
theorem C40_failures {α : Type} (sched : List Nat → List Nat) (fmt : α → Str) (parse : Str → Res α)
    (zero : α) (im : Image α) (h : im.size.length ≠ 2) :
    csvWrite sched fmt im = .throw .runtime ∧ csvRead sched parse zero none = .throw .runtime := by
  refine ⟨?_, rfl⟩
  unfold csvWrite
  rw [if_pos (show im.dim ≠ 2 from h)]

example := C40_failures List.reverse intStr (parseIntCell (-128) 127) 0 (⟨[2, 2, 1], [1, 2, 3, 4]⟩ : Image Int) (by decide)

end TinyDIP.Props
