import Verif.Lemmas.StitchWarp

/-!
# Lemmas about the canvas of stitched images
-/

namespace TinyDIP.Stitch

open TinyDIP Mat

section
variable {K : Type} [Field K] [LinearOrder K] [IsStrictOrderedRing K] [FloorRing K]

/-- The running bounds. -/
structure BoundsOf (N : Matrix (Fin 3) (Fin 3) K) (w1 h1 : Nat) (l : List (Nat × Nat)) (s : K × K × K × K) :
    Prop where
  x0 : s.1 ≤ 0
  x1 : (w1 : K) ≤ s.2.1
  y0 : s.2.2.1 ≤ 0
  y1 : (h1 : K) ≤ s.2.2.2
  xs : ∀ c ∈ l, s.1 ≤ (project N (c.1 : K) (c.2 : K)).1 ∧ (project N (c.1 : K) (c.2 : K)).1 ≤ s.2.1
  ys : ∀ c ∈ l, s.2.2.1 ≤ (project N (c.1 : K) (c.2 : K)).2 ∧ (project N (c.1 : K) (c.2 : K)).2 ≤ s.2.2.2
  ax : s.1 = 0 ∨ ∃ c ∈ l, s.1 = (project N (c.1 : K) (c.2 : K)).1
  bx : s.2.1 = (w1 : K) ∨ ∃ c ∈ l, s.2.1 = (project N (c.1 : K) (c.2 : K)).1
  ay : s.2.2.1 = 0 ∨ ∃ c ∈ l, s.2.2.1 = (project N (c.1 : K) (c.2 : K)).2
  by' : s.2.2.2 = (h1 : K) ∨ ∃ c ∈ l, s.2.2.2 = (project N (c.1 : K) (c.2 : K)).2

omit [IsStrictOrderedRing K] [FloorRing K] in
theorem min_step {a x : K} {l : List (Nat × Nat)} {X : Nat × Nat → K} {c : Nat × Nat} (hx : X c = x) {d : K}
    (ha : a = d ∨ ∃ c ∈ l, a = X c) :
    (if x < a then x else a) ≤ a ∧ (if x < a then x else a) ≤ x ∧
      ((if x < a then x else a) = d ∨ ∃ c' ∈ l ++ [c], (if x < a then x else a) = X c') := by
  by_cases h : x < a
  · rw [if_pos h]; exact ⟨h.le, le_rfl, Or.inr ⟨c, by simp, hx.symm⟩⟩
  · rw [if_neg h]
    refine ⟨le_rfl, not_lt.1 h, ?_⟩
    rcases ha with h | ⟨c', h1, h2⟩
    · exact Or.inl h
    · exact Or.inr ⟨c', by simp [h1], h2⟩

omit [IsStrictOrderedRing K] [FloorRing K] in
theorem max_step {a x : K} {l : List (Nat × Nat)} {X : Nat × Nat → K} {c : Nat × Nat} (hx : X c = x) {d : K}
    (ha : a = d ∨ ∃ c ∈ l, a = X c) :
    a ≤ (if x > a then x else a) ∧ x ≤ (if x > a then x else a) ∧
      ((if x > a then x else a) = d ∨ ∃ c' ∈ l ++ [c], (if x > a then x else a) = X c') := by
  by_cases h : x > a
  · rw [if_pos h]; exact ⟨h.le, le_rfl, Or.inr ⟨c, by simp, hx.symm⟩⟩
  · rw [if_neg h]
    refine ⟨le_rfl, not_lt.1 h, ?_⟩
    rcases ha with h | ⟨c', h1, h2⟩
    · exact Or.inl h
    · exact Or.inr ⟨c', by simp [h1], h2⟩

theorem canvasBounds_ok {N : Matrix (Fin 3) (Fin 3) K} {w1 h1 w2 h2 : Nat} (hw2 : 1 ≤ w2) (hh2 : 1 ≤ h2)
    (hw : w2 < 2 ^ 64) (hh : h2 < 2 ^ 64) (hc : ∀ c ∈ corners w2 h2, homog N (c.1 : K) (c.2 : K) 2 ≠ 0) :
    ∃ s, canvasBounds (homOf N) w1 h1 w2 h2 = .ok s ∧ BoundsOf N w1 h1 (corners w2 h2) s := by
  unfold canvasBounds
  have t1 : Sift.toSize ((w2 : K) - 1) = .ok (w2 - 1) := by
    have e : ((w2 : K) - 1) = ((w2 - 1 : Nat) : K) := by push_cast [Nat.cast_sub hw2]; ring
    have b : ((w2 - 1 : Nat) : K) < 2 ^ 64 := by exact_mod_cast (by omega : w2 - 1 < 2 ^ 64)
    have b0 : (0 : K) ≤ ((w2 - 1 : Nat) : K) := Nat.cast_nonneg _
    rw [e, toSize_nn (by linarith) b, Int.floor_natCast, Int.toNat_natCast]
  have t2 : Sift.toSize ((h2 : K) - 1) = .ok (h2 - 1) := by
    have e : ((h2 : K) - 1) = ((h2 - 1 : Nat) : K) := by push_cast [Nat.cast_sub hh2]; ring
    have b : ((h2 - 1 : Nat) : K) < 2 ^ 64 := by exact_mod_cast (by omega : h2 - 1 < 2 ^ 64)
    have b0 : (0 : K) ≤ ((h2 - 1 : Nat) : K) := Nat.cast_nonneg _
    rw [e, toSize_nn (by linarith) b, Int.floor_natCast, Int.toNat_natCast]
  rw [t1, t2]
  simp only [Res.ok_bind, homOf_w, homOf_px, homOf_py]
  have key : ∀ (l pre : List (Nat × Nat)) (s : K × K × K × K), BoundsOf N w1 h1 pre s →
      (∀ c ∈ l, homog N (c.1 : K) (c.2 : K) 2 ≠ 0) →
      ∃ s', loop (fun (s : K × K × K × K) (p : Nat × Nat) =>
        if homog N (p.1 : K) (p.2 : K) 2 = 0 then .ub
        else .ok (if (project N (p.1 : K) (p.2 : K)).1 < s.1 then (project N (p.1 : K) (p.2 : K)).1 else s.1,
          if (project N (p.1 : K) (p.2 : K)).1 > s.2.1 then (project N (p.1 : K) (p.2 : K)).1 else s.2.1,
          if (project N (p.1 : K) (p.2 : K)).2 < s.2.2.1 then (project N (p.1 : K) (p.2 : K)).2 else s.2.2.1,
          if (project N (p.1 : K) (p.2 : K)).2 > s.2.2.2 then (project N (p.1 : K) (p.2 : K)).2 else s.2.2.2)) l s =
        .ok s' ∧ BoundsOf N w1 h1 (pre ++ l) s' := by
    intro l
    induction l with
    | nil => intro pre s hs _; exact ⟨s, rfl, by simpa using hs⟩
    | cons c l ih =>
      intro pre s hs hl
      rw [loop, if_neg (hl c (by simp))]
      simp only []
      have e : pre ++ c :: l = (pre ++ [c]) ++ l := by simp
      rw [e]
      refine ih (pre ++ [c]) _ ?_ (fun c hc => hl c (by simp [hc]))
      obtain ⟨a1, a2, a3⟩ := min_step (X := fun c => (project N (c.1 : K) (c.2 : K)).1) (c := c) rfl hs.ax
      obtain ⟨b1, b2, b3⟩ := max_step (X := fun c => (project N (c.1 : K) (c.2 : K)).1) (c := c) rfl hs.bx
      obtain ⟨c1, c2, c3⟩ := min_step (X := fun c => (project N (c.1 : K) (c.2 : K)).2) (c := c) rfl hs.ay
      obtain ⟨d1, d2, d3⟩ := max_step (X := fun c => (project N (c.1 : K) (c.2 : K)).2) (c := c) rfl hs.by'
      refine ⟨a1.trans hs.x0, hs.x1.trans b1, c1.trans hs.y0, hs.y1.trans d1, ?_, ?_, a3, b3, c3, d3⟩
      · intro c' hc'
        rcases List.mem_append.1 hc' with h | h
        · obtain ⟨p, q⟩ := hs.xs c' h
          exact ⟨a1.trans p, q.trans b1⟩
        · rw [List.mem_singleton.1 h]; exact ⟨a2, b2⟩
      · intro c' hc'
        rcases List.mem_append.1 hc' with h | h
        · obtain ⟨p, q⟩ := hs.ys c' h
          exact ⟨c1.trans p, q.trans d1⟩
        · rw [List.mem_singleton.1 h]; exact ⟨c2, d2⟩
  obtain ⟨s', e, hs'⟩ := key (corners w2 h2) [] (0, (w1 : K), 0, (h1 : K))
    ⟨le_rfl, le_rfl, le_rfl, le_rfl, by simp, by simp, Or.inl rfl, Or.inl rfl, Or.inl rfl, Or.inl rfl⟩ hc
  exact ⟨s', e, by simpa using hs'⟩

/-- The translation matrix. -/
def shift (tx ty : K) : Matrix (Fin 3) (Fin 3) K := !![1, 0, tx; 0, 1, ty; 0, 0, 1]

omit [IsStrictOrderedRing K] [FloorRing K] in
theorem translation_ok (tx ty : K) : ∃ T, translation tx ty = .ok T ∧ T.Is (shift tx ty) := by
  have h0 := mk'_reads (0 : K) (m := 3) (n := 3) (by norm_num)
  obtain ⟨T1, e1, r1⟩ := h0.set (r := 0) (c := 0) (by omega) (by omega) 1
  obtain ⟨T2, e2, r2⟩ := r1.set (r := 0) (c := 1) (by omega) (by omega) 0
  obtain ⟨T3, e3, r3⟩ := r2.set (r := 0) (c := 2) (by omega) (by omega) tx
  obtain ⟨T4, e4, r4⟩ := r3.set (r := 1) (c := 0) (by omega) (by omega) 0
  obtain ⟨T5, e5, r5⟩ := r4.set (r := 1) (c := 1) (by omega) (by omega) 1
  obtain ⟨T6, e6, r6⟩ := r5.set (r := 1) (c := 2) (by omega) (by omega) ty
  obtain ⟨T7, e7, r7⟩ := r6.set (r := 2) (c := 0) (by omega) (by omega) 0
  obtain ⟨T8, e8, r8⟩ := r7.set (r := 2) (c := 1) (by omega) (by omega) 0
  obtain ⟨T9, e9, r9⟩ := r8.set (r := 2) (c := 2) (by omega) (by omega) 1
  refine ⟨T9, ?_, ?_⟩
  · unfold translation
    simp only [e1, e2, e3, e4, e5, e6, e7, e8, e9, Res.ok_bind]
  · refine r9.is.congr ?_
    ext i j
    fin_cases i <;> fin_cases j <;> simp [shift]

omit [LinearOrder K] [IsStrictOrderedRing K] [FloorRing K] in
theorem homog_mul_shift (M : Matrix (Fin 3) (Fin 3) K) (tx ty x y : K) (i : Fin 3) :
    homog (M * shift tx ty) x y i = homog M (x + tx) (y + ty) i := by
  simp only [homog_eq, Matrix.mul_apply, Fin.sum_univ_three, shift]
  simp
  ring

omit [LinearOrder K] [IsStrictOrderedRing K] [FloorRing K] in
theorem homog_shift_mul (M : Matrix (Fin 3) (Fin 3) K) (tx ty x y : K) :
    homog (shift tx ty * M) x y 0 = homog M x y 0 + tx * homog M x y 2 ∧
    homog (shift tx ty * M) x y 1 = homog M x y 1 + ty * homog M x y 2 ∧
    homog (shift tx ty * M) x y 2 = homog M x y 2 := by
  simp only [homog_eq, Matrix.mul_apply, Fin.sum_univ_three, shift]
  refine ⟨?_, ?_, ?_⟩ <;> simp <;> ring

omit [LinearOrder K] [IsStrictOrderedRing K] [FloorRing K] in
theorem det_shift (tx ty : K) : (shift tx ty).det = 1 := by
  rw [Matrix.det_fin_three]; simp [shift]

omit [LinearOrder K] [IsStrictOrderedRing K] [FloorRing K] in
theorem shift_shift (tx ty : K) : shift tx ty * shift (-tx) (-ty) = 1 := by
  ext i j
  fin_cases i <;> fin_cases j <;> simp [shift, Matrix.mul_apply, Fin.sum_univ_three]

/-- Image 2 as the version without execution policy puts it on the canvas. -/
def warpedSeq (eps : K) (M : Matrix (Fin 3) (Fin 3) K) (g : K → K → Rgb) (tx ty : K) (x y : Nat) : Rgb :=
  if |homog M (x : K) (y : K) 2| < eps then (0, 0, 0)
  else g ((project (shift tx ty * M) (x : K) (y : K)).1) ((project (shift tx ty * M) (x : K) (y : K)).2)

/-- Image 2 as the version with an execution policy puts it on the canvas. -/
def warpedPolicy (eps : K) (M : Matrix (Fin 3) (Fin 3) K) (g : K → K → Rgb) (tx ty : K) (x y : Nat) : Rgb :=
  if |homog M ((x : K) - tx) ((y : K) - ty) 2| ≤ eps then (0, 0, 0)
  else g ((project M ((x : K) - tx) ((y : K) - ty)).1) ((project M ((x : K) - tx) ((y : K) - ty)).2)

/-- Both versions, when image 2 sticks out by less than a pixel at the left and at the top. -/
theorem stitched_ok {δ eps : K} (hδ : 0 < δ) {img1 img2 : Image Rgb} {w1 h1 w2 h2 : Nat} {f1 f2 : Nat → Nat → Rgb}
    (s1 : img1.Shows w1 h1 f1) (s2 : img2.Shows w2 h2 f2) (hw2 : 1 ≤ w2) (hh2 : 1 ≤ h2)
    (b1 : ∀ x y, x < w1 → y < h1 → Byte3 (f1 x y))
    {interp : Image Rgb → K → K → Res Rgb} {g : K → K → Rgb} (hi : ∀ x y, interp img2 x y = .ok (g x y))
    (bg : ∀ x y, Byte3 (g x y)) {Hin : Mat K} {M N : Matrix (Fin 3) (Fin 3) K} (hH : Hin.Is M)
    (hNM : N * M = 1) (hdet : δ ≤ |M.det|) (hdetN : δ ≤ |N.det|)
    (hc : ∀ c ∈ corners w2 h2, homog N (c.1 : K) (c.2 : K) 2 ≠ 0)
    {Bx By : Nat} (hB : (Bx + 1) * (By + 1) < 2 ^ 64) (hw1 : w1 ≤ Bx) (hh1 : h1 ≤ By)
    (hin : ∀ c ∈ corners w2 h2, -1 < (project N (c.1 : K) (c.2 : K)).1 ∧ (project N (c.1 : K) (c.2 : K)).1 ≤ Bx ∧
      -1 < (project N (c.1 : K) (c.2 : K)).2 ∧ (project N (c.1 : K) (c.2 : K)).2 ≤ By)
    {orderW orderB orderB' : Nat → Nat → List (Nat × Nat)} {orderP : Nat → List Nat}
    (oW : ∀ a b, (orderW a b).Perm (iterYX a b)) (oB : ∀ a b, (orderB a b).Perm (iterYX a b))
    (oB' : ∀ a b, (orderB' a b).Perm (iterYX a b)) (oP : ∀ n, (orderP n).Perm (List.range n)) :
    ∃ (s : K × K × K × K) (ow oh : Nat) (out out' : Image Rgb), BoundsOf N w1 h1 (corners w2 h2) s ∧ -1 < s.1 ∧ -1 < s.2.2.1 ∧
      s.2.1 - s.1 ≤ (ow : K) ∧ s.2.2.2 - s.2.2.1 ≤ (oh : K) ∧ ow ≤ Bx + 1 ∧ oh ≤ By + 1 ∧
      (ow : K) < s.2.1 - s.1 + 1 ∧ (oh : K) < s.2.2.2 - s.2.2.1 + 1 ∧
      createStitched (fun d => decide (|d| < δ)) eps interp orderW orderB img1 img2 Hin = .ok out ∧
      out.Shows ow oh (canvasPixel (-s.1) (-s.2.2.1) w1 h1 f1 (warpedSeq eps M g (-s.1) (-s.2.2.1))) ∧
      createStitchedPolicy (fun d => decide (|d| < δ)) eps interp orderP orderB' img1 img2 Hin = .ok out' ∧
      out'.Shows ow oh (canvasPixel (-s.1) (-s.2.2.1) w1 h1 f1 (warpedPolicy eps M g (-s.1) (-s.2.2.1))) := by
  obtain ⟨R, N', eR, hR, hN', hN''⟩ := (C29_inverse δ hδ hH).2 hdet
  have hNN : N' = N := by
    calc N' = (N * M) * N' := by rw [hNM, one_mul]
      _ = N := by rw [Matrix.mul_assoc, hN'', mul_one]
  subst hNN
  obtain ⟨s, es, hs⟩ := canvasBounds_ok (w1 := w1) (h1 := h1) hw2 hh2 s2.w_lt s2.h_lt hc
  have mx : -1 < s.1 := by
    rcases hs.ax with h | ⟨c, h1, h2⟩
    · rw [h]; norm_num
    · rw [h2]; exact (hin c h1).1
  have my : -1 < s.2.2.1 := by
    rcases hs.ay with h | ⟨c, h1, h2⟩
    · rw [h]; norm_num
    · rw [h2]; exact (hin c h1).2.2.1
  have Mx : s.2.1 ≤ Bx := by
    rcases hs.bx with h | ⟨c, h1, h2⟩
    · rw [h]; exact_mod_cast hw1
    · rw [h2]; exact (hin c h1).2.1
  have My : s.2.2.2 ≤ By := by
    rcases hs.by' with h | ⟨c, h1, h2⟩
    · rw [h]; exact_mod_cast hh1
    · rw [h2]; exact (hin c h1).2.2.2
  have w1nn : (0 : K) ≤ w1 := Nat.cast_nonneg _
  have h1nn : (0 : K) ≤ h1 := Nat.cast_nonneg _
  have hBx : Bx + 1 < 2 ^ 64 := lt_of_le_of_lt (Nat.le_mul_of_pos_right _ (Nat.succ_pos _)) hB
  have hBy : By + 1 < 2 ^ 64 := lt_of_le_of_lt (Nat.le_mul_of_pos_left _ (Nat.succ_pos _)) hB
  have size : ∀ (a b : K) (B : Nat), b ≤ 0 → 0 ≤ a → -1 < b → a ≤ B → B + 1 < 2 ^ 64 →
      ∃ n : Nat, Sift.toSize ((⌈a - b⌉ : Int) : K) = .ok n ∧ a - b ≤ (n : K) ∧ n ≤ B + 1 ∧ (n : K) < a - b + 1 := by
    intro a b B hb ha hb1 haB hB
    have c0 : 0 ≤ ⌈a - b⌉ := Int.ceil_nonneg (by linarith)
    have c1 : ⌈a - b⌉ ≤ ((B + 1 : Nat) : Int) := by
      rw [Int.ceil_le]; push_cast; linarith
    have e : ((⌈a - b⌉.toNat : Int) : K) = ((⌈a - b⌉ : Int) : K) := by rw [Int.toNat_of_nonneg c0]
    refine ⟨⌈a - b⌉.toNat, ?_, ?_, by omega, ?_⟩
    · rw [toSize_nn, Int.floor_intCast]
      · have : ((0 : Int) : K) ≤ ((⌈a - b⌉ : Int) : K) := by exact_mod_cast c0
        push_cast at this
        linarith
      · have : (⌈a - b⌉ : Int) < 2 ^ 64 := by omega
        exact_mod_cast this
    · have := Int.le_ceil (a - b)
      rw [← e] at this
      exact_mod_cast this
    · have := Int.ceil_lt_add_one (a - b)
      rw [← e] at this
      exact_mod_cast this
  obtain ⟨ow, eow, low, uow, vow⟩ := size s.2.1 s.1 Bx hs.x0 (w1nn.trans hs.x1) mx Mx hBx
  obtain ⟨oh, eoh, loh, uoh, voh⟩ := size s.2.2.2 s.2.2.1 By hs.y0 (h1nn.trans hs.y1) my My hBy
  have how : ow < 2 ^ 64 := by omega
  have hoh : oh < 2 ^ 64 := by omega
  have hwh : ow * oh < 2 ^ 64 := lt_of_le_of_lt (Nat.mul_le_mul uow uoh) hB
  obtain ⟨T, eT, hT⟩ := translation_ok (-s.1) (-s.2.2.1)
  obtain ⟨F, eF, hF⟩ := C28_product hT hH (by norm_num)
  obtain ⟨G, eG, hG⟩ := C28_product hT hR (by norm_num)
  -- the first version
  obtain ⟨wa, ewa, swa⟩ := warpSeq_shows (0, 0, 0) eps hi hF how hoh hwh (oW ow oh)
  have swa' : wa.Shows ow oh (warpedSeq eps M g (-s.1) (-s.2.2.1)) := swa.congr fun x y _ _ => by
    unfold warpedSeq
    rw [(homog_shift_mul M _ _ _ _).2.2]
  have txn : 0 ≤ -s.1 := by linarith [hs.x0]
  have tyn : 0 ≤ -s.2.2.1 := by linarith [hs.y0]
  have bx : -s.1 + (w1 : K) < 2 ^ 64 := by
    have h1 : (w1 : K) ≤ Bx := by exact_mod_cast hw1
    have h2 : ((Bx + 1 : Nat) : K) < 2 ^ 64 := by exact_mod_cast hBx
    push_cast at h2
    linarith
  have by_ : -s.2.2.1 + (h1 : K) < 2 ^ 64 := by
    have h1 : (h1 : K) ≤ By := by exact_mod_cast hh1
    have h2 : ((By + 1 : Nat) : K) < 2 ^ 64 := by exact_mod_cast hBy
    push_cast at h2
    linarith
  have bzero : Byte3 (0, 0, 0) := ⟨by simp, by simp, by simp⟩
  obtain ⟨out, eout, sout⟩ := blend_shows s1 swa' b1 (by
    intro x y _ _; unfold warpedSeq; split; exacts [bzero, bg _ _]) txn tyn (by linarith) (by linarith) bx by_ (oB ow oh)
  -- the second version
  have hdG : δ ≤ |(shift (-s.1) (-s.2.2.1) * N').det| := by
    rw [Matrix.det_mul, det_shift, one_mul]; exact hdetN
  obtain ⟨Q, P, eQ, hQ, hP, -⟩ := (C29_inverse δ hδ hG).2 hdG
  have hPe : P = M * shift s.1 s.2.2.1 := by
    have hss := shift_shift (-s.1) (-s.2.2.1)
    rw [neg_neg, neg_neg] at hss
    calc P = P * ((shift (-s.1) (-s.2.2.1) * N') * (M * shift s.1 s.2.2.1)) := by
          rw [Matrix.mul_assoc (shift _ _), ← Matrix.mul_assoc N', hN', one_mul, hss, mul_one]
      _ = M * shift s.1 s.2.2.1 := by rw [← Matrix.mul_assoc, hP, one_mul]
  obtain ⟨wb, ewb, swb⟩ := warpPolicy_shows (0, 0, 0) eps hi hG eQ hQ how hoh hwh (oP (ow * oh))
  have swb' : wb.Shows ow oh (warpedPolicy eps M g (-s.1) (-s.2.2.1)) := swb.congr fun x y _ _ => by
    unfold warpedPolicy project
    rw [hPe]
    simp only [homog_mul_shift, sub_neg_eq_add]
  obtain ⟨out', eout', sout'⟩ := blend_shows s1 swb' b1 (by
    intro x y _ _; unfold warpedPolicy; split; exacts [bzero, bg _ _]) txn tyn (by linarith) (by linarith) bx by_
    (oB' ow oh)
  refine ⟨s, ow, oh, out, out', hs, mx, my, low, loh, uow, uoh, vow, voh, ?_, sout, ?_, sout'⟩
  · unfold createStitched
    rw [isEmpty_false hH]
    simp only [Bool.false_eq_true, if_false, eR, Res.ok_bind, isEmpty_false hR, readHom_ok hR, s1.width, s1.height,
      s2.width, s2.height, es, eow, eoh, eT, eF, ewa]
    exact eout
  · unfold createStitchedPolicy
    rw [isEmpty_false hH]
    have hwm : wmul ow oh = ow * oh := wmul_of_lt hwh
    simp only [Bool.false_eq_true, if_false, eR, Res.ok_bind, isEmpty_false hR, readHom_ok hR, s1.width, s1.height,
      s2.width, s2.height, es, eow, eoh, eT, eG, hwm, ewb]
    exact eout'

end

end TinyDIP.Stitch
