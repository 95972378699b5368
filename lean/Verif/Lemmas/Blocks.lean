import Verif.Lemmas.Padding

namespace TinyDIP

variable {α : Type}

/-- A loop that appends one computed element per iteration. -/
theorem loop_collect {β γ : Type} (g : β → Res γ) (b : β → γ) (l : List β)
    (hg : ∀ x ∈ l, g x = .ok (b x)) (acc : List γ) :
    loop (fun acc x => do
      let v ← g x
      .ok (acc ++ [v])) l acc = .ok (acc ++ l.map b) := by
  induction l generalizing acc with
  | nil => simp [loop]
  | cons x xs ih =>
    have h1 := ih (fun y hy => hg y (by simp [hy])) (acc ++ [b x])
    simp only [loop, hg x (by simp), Res.ok_bind, h1, List.map_cons, List.append_assoc,
      List.singleton_append]

/-! ### concatenation -/

theorem concatH2_shows (z : α) {i1 i2 : Image α} {w1 w2 h : Nat} {f1 f2 : Nat → Nat → α}
    (s1 : i1.Shows w1 h f1) (s2 : i2.Shows w2 h f2) (hw : w1 + w2 < 2 ^ 64)
    (hf : (w1 + w2) * h < 2 ^ 64) :
    ∃ out, concatH2 z i1 i2 = .ok out ∧
      out.Shows (w1 + w2) h (fun x y => if x < w1 then f1 x y else f2 (x - w1) y) := by
  rw [concatH2, s1.height, s2.height, if_neg (by simp), s1.width, s2.width, wadd_of_lt hw]
  obtain ⟨o1, e1, so1⟩ : ∃ out', pixFor (iterYX w1 h) (fun out x y => copyAt i1 out x y x y)
      (Image.ofSizes z [w1 + w2, h]) = .ok out' ∧
      out'.Shows (w1 + w2) h (fun x y => if x < w1 then f1 x y else z) := by
    refine pixFor_write _ (fun x _ => x) (fun _ y => y) f1 _ (ofSizes_shows z hw s1.h_lt hf)
      ?_ _ ?_
    · intro x y hp im f' hs
      obtain ⟨hx, hy⟩ := mem_iterYX.mp hp
      simp only at hx hy
      exact copyAt_ok s1 hs hx hy (by omega) hy
    · intro a b _ hb
      constructor
      · intro ha; exact ⟨a, b, mem_iterYX.mpr ⟨ha, hb⟩, rfl, rfl⟩
      · rintro ⟨x, y, hp, rfl, rfl⟩; exact (mem_iterYX.mp hp).1
  rw [e1, Res.ok_bind]
  obtain ⟨o2, e2, so2⟩ : ∃ out', pixFor (iterYX w2 h)
      (fun out x y => copyAt i2 out x y (wadd w1 x) y) o1 = .ok out' ∧
      out'.Shows (w1 + w2) h (fun x y => if ¬ x < w1 then f2 (x - w1) y
        else if x < w1 then f1 x y else z) := by
    refine pixFor_write _ (fun x _ => w1 + x) (fun _ y => y) (fun x y => f2 (x - w1) y) _ so1
      ?_ _ ?_
    · intro x y hp im f' hs
      obtain ⟨hx, hy⟩ := mem_iterYX.mp hp
      simp only at hx hy
      rw [wadd_of_lt (by omega), Nat.add_sub_cancel_left]
      exact copyAt_ok s2 hs hx hy (by omega) hy
    · intro a b ha hb
      constructor
      · intro h1; exact ⟨a - w1, b, mem_iterYX.mpr ⟨by simp only; omega, hb⟩, by omega, rfl⟩
      · rintro ⟨x, y, hp, rfl, rfl⟩; omega
  refine ⟨o2, e2, so2.congr fun x y _ _ => ?_⟩
  by_cases hx : x < w1 <;> simp [hx]

theorem concatV2_shows (z : α) {i1 i2 : Image α} {w h1 h2 : Nat} {f1 f2 : Nat → Nat → α}
    (s1 : i1.Shows w h1 f1) (s2 : i2.Shows w h2 f2) (hh : h1 + h2 < 2 ^ 64)
    (hf : w * (h1 + h2) < 2 ^ 64) :
    ∃ out, concatV2 z i1 i2 = .ok out ∧
      out.Shows w (h1 + h2) (fun x y => if y < h1 then f1 x y else f2 x (y - h1)) := by
  rw [concatV2, s1.width, s2.width, if_neg (by simp), s1.height, s2.height, wadd_of_lt hh]
  obtain ⟨o1, e1, so1⟩ : ∃ out', pixFor (iterYX w h1) (fun out x y => copyAt i1 out x y x y)
      (Image.ofSizes z [w, h1 + h2]) = .ok out' ∧
      out'.Shows w (h1 + h2) (fun x y => if y < h1 then f1 x y else z) := by
    refine pixFor_write _ (fun x _ => x) (fun _ y => y) f1 _ (ofSizes_shows z s1.w_lt hh hf)
      ?_ _ ?_
    · intro x y hp im f' hs
      obtain ⟨hx, hy⟩ := mem_iterYX.mp hp
      simp only at hx hy
      exact copyAt_ok s1 hs hx hy hx (by omega)
    · intro a b ha _
      constructor
      · intro hb; exact ⟨a, b, mem_iterYX.mpr ⟨ha, hb⟩, rfl, rfl⟩
      · rintro ⟨x, y, hp, rfl, rfl⟩; exact (mem_iterYX.mp hp).2
  rw [e1, Res.ok_bind]
  obtain ⟨o2, e2, so2⟩ : ∃ out', pixFor (iterYX w h2)
      (fun out x y => copyAt i2 out x y x (wadd h1 y)) o1 = .ok out' ∧
      out'.Shows w (h1 + h2) (fun x y => if ¬ y < h1 then f2 x (y - h1)
        else if y < h1 then f1 x y else z) := by
    refine pixFor_write _ (fun x _ => x) (fun _ y => h1 + y) (fun x y => f2 x (y - h1)) _ so1
      ?_ _ ?_
    · intro x y hp im f' hs
      obtain ⟨hx, hy⟩ := mem_iterYX.mp hp
      simp only at hx hy
      rw [wadd_of_lt (by omega), Nat.add_sub_cancel_left]
      exact copyAt_ok s2 hs hx hy hx (by omega)
    · intro a b ha hb
      constructor
      · intro h1'; exact ⟨a, b - h1, mem_iterYX.mpr ⟨ha, by simp only; omega⟩, rfl, by omega⟩
      · rintro ⟨x, y, hp, rfl, rfl⟩; omega
  refine ⟨o2, e2, so2.congr fun x y _ _ => ?_⟩
  by_cases hy : y < h1 <;> simp [hy]

/-- Pixel `(x, y)` of pieces `(width, pixels)` laid side by side. -/
def hcatFn (z : α) : List (Nat × (Nat → Nat → α)) → Nat → Nat → α
  | [], _, _ => z
  | p :: ps, x, y => if x < p.1 then p.2 x y else hcatFn z ps (x - p.1) y

/-- Pixel `(x, y)` of pieces `(height, pixels)` laid on top of each other. -/
def vcatFn (z : α) : List (Nat × (Nat → Nat → α)) → Nat → Nat → α
  | [], _, _ => z
  | p :: ps, x, y => if y < p.1 then p.2 x y else vcatFn z ps x (y - p.1)

theorem concatH_loop (z : α) {h : Nat} (is : List (Image α)) (ps : List (Nat × (Nat → Nat → α)))
    (hps : List.Forall₂ (fun im p => im.Shows p.1 h p.2) is ps) (out : Image α) {w0 : Nat}
    {f0 : Nat → Nat → α} (so : out.Shows w0 h f0) (hw : w0 + (ps.map Prod.fst).sum < 2 ^ 64)
    (hf : (w0 + (ps.map Prod.fst).sum) * h < 2 ^ 64) :
    ∃ o, loop (fun out im => concatH2 z out im) is out = .ok o ∧
      o.Shows (w0 + (ps.map Prod.fst).sum) h
        (fun x y => if x < w0 then f0 x y else hcatFn z ps (x - w0) y) := by
  induction hps generalizing out w0 f0 with
  | nil =>
    refine ⟨out, rfl, ?_⟩
    simp only [List.map_nil, List.sum_nil, Nat.add_zero]
    exact so.congr fun x y hx _ => by simp [hx]
  | @cons im p is ps s1 _ ih =>
    simp only [List.map_cons, List.sum_cons] at hw hf
    have hf' : (w0 + p.1) * h < 2 ^ 64 :=
      Nat.lt_of_le_of_lt (Nat.mul_le_mul_right _ (by omega)) hf
    obtain ⟨o1, e1, so1⟩ := concatH2_shows z so s1 (by omega) hf'
    obtain ⟨o2, e2, so2⟩ := ih o1 so1 (by omega) (by rw [Nat.add_assoc]; exact hf)
    refine ⟨o2, by simp only [loop, e1, e2], ?_⟩
    simp only [List.map_cons, List.sum_cons]
    rw [Nat.add_assoc] at so2
    refine so2.congr fun x y _ _ => ?_
    simp only [hcatFn]
    by_cases h1 : x < w0
    · rw [if_pos (by omega), if_pos h1, if_pos h1]
    · rw [if_neg h1]
      by_cases h2 : x - w0 < p.1
      · rw [if_pos (by omega), if_neg h1, if_pos h2]
      · rw [if_neg (by omega), if_neg h2, Nat.sub_sub, if_neg h1]

theorem concatV_loop (z : α) {w : Nat} (is : List (Image α)) (ps : List (Nat × (Nat → Nat → α)))
    (hps : List.Forall₂ (fun im p => im.Shows w p.1 p.2) is ps) (out : Image α) {h0 : Nat}
    {f0 : Nat → Nat → α} (so : out.Shows w h0 f0) (hw : h0 + (ps.map Prod.fst).sum < 2 ^ 64)
    (hf : w * (h0 + (ps.map Prod.fst).sum) < 2 ^ 64) :
    ∃ o, loop (fun out im => concatV2 z out im) is out = .ok o ∧
      o.Shows w (h0 + (ps.map Prod.fst).sum)
        (fun x y => if y < h0 then f0 x y else vcatFn z ps x (y - h0)) := by
  induction hps generalizing out h0 f0 with
  | nil =>
    refine ⟨out, rfl, ?_⟩
    simp only [List.map_nil, List.sum_nil, Nat.add_zero]
    exact so.congr fun x y _ hy => by simp [hy]
  | @cons im p is ps s1 _ ih =>
    simp only [List.map_cons, List.sum_cons] at hw hf
    have hf' : w * (h0 + p.1) < 2 ^ 64 :=
      Nat.lt_of_le_of_lt (Nat.mul_le_mul_left _ (by omega)) hf
    obtain ⟨o1, e1, so1⟩ := concatV2_shows z so s1 (by omega) hf'
    obtain ⟨o2, e2, so2⟩ := ih o1 so1 (by omega) (by rw [Nat.add_assoc]; exact hf)
    refine ⟨o2, by simp only [loop, e1, e2], ?_⟩
    simp only [List.map_cons, List.sum_cons]
    rw [Nat.add_assoc] at so2
    refine so2.congr fun x y _ _ => ?_
    simp only [vcatFn]
    by_cases h1 : y < h0
    · rw [if_pos (by omega), if_pos h1, if_pos h1]
    · rw [if_neg h1]
      by_cases h2 : y - h0 < p.1
      · rw [if_pos (by omega), if_neg h1, if_pos h2]
      · rw [if_neg (by omega), if_neg h2, Nat.sub_sub, if_neg h1]

/-- Side-by-side concatenation of a non-empty list. -/
theorem concatH_shows (z : α) {h : Nat} (is : List (Image α)) (ps : List (Nat × (Nat → Nat → α)))
    (hne : is ≠ []) (hps : List.Forall₂ (fun im p => im.Shows p.1 h p.2) is ps)
    (hw : (ps.map Prod.fst).sum < 2 ^ 64) (hf : (ps.map Prod.fst).sum * h < 2 ^ 64) :
    ∃ o, concatH z is = .ok o ∧ o.Shows (ps.map Prod.fst).sum h (hcatFn z ps) := by
  cases hps with
  | nil => exact absurd rfl hne
  | @cons im p is ps s1 hps =>
    simp only [List.map_cons, List.sum_cons] at hw hf
    obtain ⟨o, e, so⟩ := concatH_loop z is ps hps im s1 hw hf
    exact ⟨o, e, so.congr fun x y _ _ => by simp only [hcatFn]⟩

theorem concatV_shows (z : α) {w : Nat} (is : List (Image α)) (ps : List (Nat × (Nat → Nat → α)))
    (hne : is ≠ []) (hps : List.Forall₂ (fun im p => im.Shows w p.1 p.2) is ps)
    (hw : (ps.map Prod.fst).sum < 2 ^ 64) (hf : w * (ps.map Prod.fst).sum < 2 ^ 64) :
    ∃ o, concatV z is = .ok o ∧ o.Shows w (ps.map Prod.fst).sum (vcatFn z ps) := by
  cases hps with
  | nil => exact absurd rfl hne
  | @cons im p is ps s1 hps =>
    simp only [List.map_cons, List.sum_cons] at hw hf
    obtain ⟨o, e, so⟩ := concatV_loop z is ps hps im s1 hw hf
    exact ⟨o, e, so.congr fun x y _ _ => by simp only [vcatFn]⟩

theorem hcatFn_append (z : α) (pre post : List (Nat × (Nat → Nat → α)))
    (p : Nat × (Nat → Nat → α)) {x y : Nat} (hx : x < p.1) :
    hcatFn z (pre ++ p :: post) ((pre.map Prod.fst).sum + x) y = p.2 x y := by
  induction pre with
  | nil => simp [hcatFn, hx]
  | cons q pre ih =>
    simp only [List.cons_append, hcatFn, List.map_cons, List.sum_cons]
    rw [if_neg (by omega), ← ih]
    congr 1; omega

theorem vcatFn_append (z : α) (pre post : List (Nat × (Nat → Nat → α)))
    (p : Nat × (Nat → Nat → α)) {x y : Nat} (hy : y < p.1) :
    vcatFn z (pre ++ p :: post) x ((pre.map Prod.fst).sum + y) = p.2 x y := by
  induction pre with
  | nil => simp [vcatFn, hy]
  | cons q pre ih =>
    simp only [List.cons_append, vcatFn, List.map_cons, List.sum_cons]
    rw [if_neg (by omega), ← ih]
    congr 1; omega

/-! ### split, and concatenating the blocks again -/

theorem hcatFn_blocks (z : α) (b : Nat) (T : Nat → Nat → α) (n k0 X Y : Nat) (hX : X < n * b) :
    hcatFn z ((List.range' k0 n).map fun k => (b, fun x y => T (k * b + x) y)) X Y
      = T (k0 * b + X) Y := by
  induction n generalizing k0 X with
  | zero => simp at hX
  | succ n ih =>
    simp only [List.range'_succ, List.map_cons, hcatFn]
    split
    · rfl
    · rename_i h1
      rw [Nat.succ_mul] at hX
      rw [ih (k0 + 1) (X - b) (by omega), Nat.succ_mul]
      congr 1; omega

theorem vcatFn_blocks (z : α) (b : Nat) (T : Nat → Nat → α) (n k0 X Y : Nat) (hY : Y < n * b) :
    vcatFn z ((List.range' k0 n).map fun k => (b, fun x y => T x (k * b + y))) X Y
      = T X (k0 * b + Y) := by
  induction n generalizing k0 Y with
  | zero => simp at hY
  | succ n ih =>
    simp only [List.range'_succ, List.map_cons, vcatFn]
    split
    · rfl
    · rename_i h1
      rw [Nat.succ_mul] at hY
      rw [ih (k0 + 1) (Y - b) (by omega), Nat.succ_mul]
      congr 1; omega

theorem forall₂_map_map {β : Type} {A B : Type} {R : A → B → Prop} (l : List β) (f : β → A)
    (g : β → B) (hR : ∀ x ∈ l, R (f x) (g x)) : List.Forall₂ R (l.map f) (l.map g) := by
  induction l with
  | nil => exact .nil
  | cons x xs ih => exact .cons (hR x (by simp)) (ih fun y hy => hR y (by simp [hy]))

theorem sum_map_const {β : Type} (l : List β) (f : β → Nat → Nat → α) (b : Nat) :
    ((l.map fun k => (b, f k)).map Prod.fst).sum = l.length * b := by
  induction l with
  | nil => simp
  | cons x xs ih => simp only [List.map_cons, List.sum_cons, ih, List.length_cons, Nat.succ_mul]; omega

theorem split_index {k b n w : Nat} (hk : k < n) (hb : b = w / n) (hb0 : 0 < b)
    (hw : w < 2 ^ 64) :
    wmul k b = k * b ∧ wsub (wmul (wadd k 1) b) 1 = k * b + b - 1 ∧ k * b + b ≤ w := by
  have h1 : (k + 1) * b ≤ w := by
    calc (k + 1) * b ≤ n * b := Nat.mul_le_mul_right _ hk
      _ = n * (w / n) := by rw [hb]
      _ ≤ w := Nat.mul_div_le w n
  rw [Nat.succ_mul] at h1
  have hn : n ≤ w := by
    by_contra hc
    rw [Nat.div_eq_of_lt (by omega)] at hb; omega
  refine ⟨wmul_of_lt (by omega), ?_, h1⟩
  rw [wadd_of_lt (by omega), wmul_of_lt (by rw [Nat.succ_mul]; omega),
    wsub_of_le (by rw [Nat.succ_mul]; omega) (by rw [Nat.succ_mul]; omega), Nat.succ_mul]

theorem split_shows (z : α) {im : Image α} {w h : Nat} {f : Nat → Nat → α} (s : im.Shows w h f)
    {xs ys : Nat} (hx : 0 < xs) (hy : 0 < ys) (hbx : xs ≤ w) (hby : ys ≤ h) :
    ∃ blk : Nat → Nat → Image α,
      split z im xs ys = .ok ((List.range ys).map fun y => (List.range xs).map fun x => blk x y) ∧
      ∀ x y, x < xs → y < ys → (blk x y).Shows (w / xs) (h / ys)
        (fun i j => f (x * (w / xs) + i) (y * (h / ys) + j)) := by
  have hbx0 : 0 < w / xs := Nat.div_pos hbx hx
  have hby0 : 0 < h / ys := Nat.div_pos hby hy
  have key : ∀ x y, x < xs → y < ys → ∃ b,
      subimage2 z im (wmul x (w / xs)) (wsub (wmul (wadd x 1) (w / xs)) 1)
        (wmul y (h / ys)) (wsub (wmul (wadd y 1) (h / ys)) 1) = .ok b ∧
      b.Shows (w / xs) (h / ys) (fun i j => f (x * (w / xs) + i) (y * (h / ys) + j)) := by
    intro x y hx' hy'
    obtain ⟨a1, a2, a3⟩ := split_index hx' rfl hbx0 s.w_lt
    obtain ⟨b1, b2, b3⟩ := split_index hy' rfl hby0 s.h_lt
    rw [a1, a2, b1, b2]
    obtain ⟨b, e, sb⟩ := subimage2_shows z s (sx := x * (w / xs)) (ex := x * (w / xs) + w / xs - 1)
      (sy := y * (h / ys)) (ey := y * (h / ys) + h / ys - 1) (by omega) (by omega) (by omega)
      (by omega)
    have ex : x * (w / xs) + w / xs - 1 - x * (w / xs) + 1 = w / xs := by omega
    have ey : y * (h / ys) + h / ys - 1 - y * (h / ys) + 1 = h / ys := by omega
    rw [ex, ey] at sb
    exact ⟨b, e, sb⟩
  classical
  refine ⟨fun x y => if hc : x < xs ∧ y < ys then (key x y hc.1 hc.2).choose else im, ?_, ?_⟩
  · rw [split, s.width, s.height]
    simp only [udiv, Nat.ne_of_gt hx, Nat.ne_of_gt hy, if_false, Res.ok_bind, forUp]
    rw [loop_collect _ (fun y => (List.range xs).map fun x =>
      if hc : x < xs ∧ y < ys then (key x y hc.1 hc.2).choose else im)]
    · simp
    · intro y hy'
      rw [List.mem_range] at hy'
      rw [loop_collect _ (fun x => if hc : x < xs ∧ y < ys then (key x y hc.1 hc.2).choose else im)]
      · simp
      · intro x hx'
        rw [List.mem_range] at hx'
        rw [dif_pos ⟨hx', hy'⟩]
        exact (key x y hx' hy').choose_spec.1
  · intro x y hx' hy'
    simp only [dif_pos (And.intro hx' hy')]
    exact (key x y hx' hy').choose_spec.2

/-- Concatenating the blocks of `split` gives the part of the image the blocks cover. -/
theorem concat_split_shows (z : α) {im : Image α} {w h : Nat} {f : Nat → Nat → α}
    (s : im.Shows w h f) {xs ys : Nat} (hx : 0 < xs) (hy : 0 < ys) (hbx : xs ≤ w) (hby : ys ≤ h) :
    ∃ blocks out, split z im xs ys = .ok blocks ∧ concat z blocks = .ok out ∧
      out.Shows (xs * (w / xs)) (ys * (h / ys)) f := by
  obtain ⟨blk, e, hb⟩ := split_shows z s hx hy hbx hby
  have hwle : xs * (w / xs) ≤ w := Nat.mul_div_le w xs
  have hhle : ys * (h / ys) ≤ h := Nat.mul_div_le h ys
  have hw := s.w_lt
  have hh := s.h_lt
  have hrow : ∀ y, y < ys → ∃ r, concatH z ((List.range xs).map fun x => blk x y) = .ok r ∧
      r.Shows (xs * (w / xs)) (h / ys) (fun i j => f i (y * (h / ys) + j)) := by
    intro y hy'
    have hpp := sum_map_const (α := α) (List.range xs)
        (fun k x' y' => f (k * (w / xs) + x') (y * (h / ys) + y')) (w / xs)
    rw [List.length_range] at hpp
    obtain ⟨r, er, sr⟩ := concatH_shows z (h := h / ys) ((List.range xs).map fun x => blk x y)
      ((List.range xs).map fun k => (w / xs, fun x' y' => f (k * (w / xs) + x') (y * (h / ys) + y')))
      (by simp; omega)
      (forall₂_map_map _ _ _ fun x hx' => hb x y (List.mem_range.mp hx') hy')
      (by rw [hpp]; omega) (by rw [hpp]; exact block_fits hwle (Nat.div_le_self _ _) s.fits)
    rw [hpp] at sr
    refine ⟨r, er, sr.congr fun i j hi _ => ?_⟩
    have := hcatFn_blocks z (w / xs) (fun a b => f a (y * (h / ys) + b)) xs 0 i j hi
    rw [List.range_eq_range']
    rw [this]; simp
  classical
  let row : Nat → Image α := fun y => if hc : y < ys then (hrow y hc).choose else im
  have hrow1 : ∀ y, y < ys → concatH z ((List.range xs).map fun x => blk x y) = .ok (row y) := by
    intro y hy'; simp only [row, dif_pos hy']; exact (hrow y hy').choose_spec.1
  have hrow2 : ∀ y, y < ys → (row y).Shows (xs * (w / xs)) (h / ys)
      (fun i j => f i (y * (h / ys) + j)) := by
    intro y hy'; simp only [row, dif_pos hy']; exact (hrow y hy').choose_spec.2
  have hpp := sum_map_const (α := α) (List.range ys)
    (fun k x' y' => f x' (k * (h / ys) + y')) (h / ys)
  rw [List.length_range] at hpp
  obtain ⟨o, eo, so⟩ := concatV_shows z (w := xs * (w / xs)) ((List.range ys).map row)
    ((List.range ys).map fun k => (h / ys, fun x' y' => f x' (k * (h / ys) + y')))
    (by simp; omega)
    (forall₂_map_map _ _ _ fun y hy' => hrow2 y (List.mem_range.mp hy'))
    (by rw [hpp]; omega) (by rw [hpp]; exact block_fits hwle hhle s.fits)
  rw [hpp] at so
  refine ⟨_, o, e, ?_, so.congr fun i j _ hj => ?_⟩
  · rw [concat, ← loop_map]
    rw [loop_collect _ row _ (fun y hy' => hrow1 y (List.mem_range.mp hy'))]
    simpa using eo
  · have := vcatFn_blocks z (h / ys) f ys 0 i j hj
    rw [List.range_eq_range', this]; simp

/-! ### loops that set every element -/

/-- A loop over any arrangement of the element positions, each iteration of which sets its own
element. -/
theorem loop_setAll {n : Nat} {sz : List Nat} (v : Nat → α) (body : Image α → Nat → Res (Image α))
    (l : List Nat)
    (hstep : ∀ i ∈ l, ∀ d : List α, d.length = n → body ⟨sz, d⟩ i = .ok ⟨sz, d.set i (v i)⟩)
    (d0 : List α) (hd : d0.length = n) :
    ∃ d, loop body l ⟨sz, d0⟩ = .ok ⟨sz, d⟩ ∧ d.length = n ∧
      (∀ i, i ∈ l → i < n → d[i]? = some (v i)) ∧ ∀ i, i ∉ l → d[i]? = d0[i]? := by
  induction l generalizing d0 with
  | nil => exact ⟨d0, rfl, hd, by simp, by simp⟩
  | cons k l ih =>
    have h1 := hstep k (by simp) d0 hd
    obtain ⟨d, e, hl, hin, hout⟩ := ih (fun i hi => hstep i (by simp [hi])) (d0.set k (v k))
      (by simpa using hd)
    refine ⟨d, by simp only [loop, h1, e], hl, ?_, ?_⟩
    · intro i hi hn
      by_cases hil : i ∈ l
      · exact hin i hil hn
      · have : i = k := by simpa [hil] using hi
        subst this
        rw [hout i hil, List.getElem?_set]
        simp [hd, hn]
    · intro i hi
      simp only [List.mem_cons, not_or] at hi
      rw [hout i hi.2, List.getElem?_set]
      simp [Ne.symm hi.1]

theorem loop_setAll_full {n : Nat} {sz : List Nat} (v : Nat → α)
    (body : Image α → Nat → Res (Image α)) (l : List Nat) (hcov : ∀ i, i < n → i ∈ l)
    (hstep : ∀ i ∈ l, ∀ d : List α, d.length = n → body ⟨sz, d⟩ i = .ok ⟨sz, d.set i (v i)⟩)
    (d0 : List α) (hd : d0.length = n) :
    loop body l ⟨sz, d0⟩ = .ok ⟨sz, (List.range n).map v⟩ := by
  obtain ⟨d, e, hl, hin, _⟩ := loop_setAll v body l hstep d0 hd
  rw [e]
  congr 2
  apply List.ext_getElem?
  intro i
  by_cases hi : i < n
  · rw [hin i (hcov i hi) hi]; simp [hi]
  · rw [List.getElem?_eq_none (by omega), List.getElem?_eq_none (by simp; omega)]

/-! ### subimage -/

/-- The source coordinates `c - ⌊n/2⌋ + i` of pixel `i`, as integers. -/
def shiftCoords : (newSizes centers idx : List Nat) → List Int
  | n :: ns, c :: cs, i :: is => ((c : Int) - ((n / 2 : Nat) : Int) + (i : Int)) :: shiftCoords ns cs is
  | _, _, _ => []

theorem subimageStrides_eq (n : Nat) (sizes : List Nat) (t : Nat) :
    linearToIndicesStrides n (subimageStrides sizes t) sizes = linearToIndicesGo n sizes t := by
  induction sizes generalizing t with
  | nil => rfl
  | cons s ss ih => simp only [subimageStrides, linearToIndicesStrides, linearToIndicesGo, ih]

/-- No wrap-around that could bring a wrapped coordinate back into the input. -/
def SubimageFits : (sizes newSizes centers : List Nat) → Prop
  | s :: ss, n :: ns, c :: cs => c + n < 2 ^ 64 ∧ s + n / 2 ≤ 2 ^ 64 ∧ SubimageFits ss ns cs
  | _, _, _ => True

theorem subimageIdx_spec (sizes newSizes centers idx : List Nat)
    (hl1 : newSizes.length = sizes.length) (hl2 : centers.length = sizes.length)
    (hfit : SubimageFits sizes newSizes centers) (hidx : InBounds newSizes idx) :
    (∀ src, subimageIdx (subimageStart newSizes centers) idx sizes = some src →
      InBounds sizes src ∧ src.map Int.ofNat = shiftCoords newSizes centers idx) ∧
    (subimageIdx (subimageStart newSizes centers) idx sizes = none →
      ¬ ∃ src, InBounds sizes src ∧ src.map Int.ofNat = shiftCoords newSizes centers idx) := by
  unfold InBounds at *
  induction hidx generalizing sizes centers with
  | nil =>
    cases sizes with
    | nil =>
      refine ⟨fun src h => ?_, fun h => ?_⟩
      · simp [subimageIdx, subimageStart] at h; subst h; exact ⟨.nil, rfl⟩
      · simp [subimageIdx, subimageStart] at h
    | cons => simp at hl1
  | @cons i n is ns hi _ ih =>
    cases sizes with
    | nil => simp at hl1
    | cons s ss =>
      cases centers with
      | nil => simp at hl2
      | cons c cs =>
        obtain ⟨f1, f2, f3⟩ := hfit
        obtain ⟨ih1, ih2⟩ := ih ss cs (by simpa using hl1) (by simpa using hl2) f3
        have hcoord : (wadd (wsub c (n / 2)) i < s →
            ((wadd (wsub c (n / 2)) i : Nat) : Int) = (c : Int) - ((n / 2 : Nat) : Int) + (i : Int)) ∧
            (¬ wadd (wsub c (n / 2)) i < s →
              ¬ ∃ v : Nat, v < s ∧ (v : Int) = (c : Int) - ((n / 2 : Nat) : Int) + (i : Int)) := by
          by_cases hc : n / 2 ≤ c
          · rw [wsub_of_le hc (by omega), wadd_of_lt (by omega)]
            refine ⟨fun _ => by omega, fun h1 => ?_⟩
            rintro ⟨v, h2, h3⟩; omega
          · rw [wsub_of_gt (by omega) (by omega)]
            by_cases hw : c + i < n / 2
            · rw [wadd_of_lt (by omega)]
              refine ⟨fun h1 => by omega, fun _ => ?_⟩
              rintro ⟨v, h2, h3⟩; omega
            · have : wadd (c + 2 ^ 64 - n / 2) i = c + i - n / 2 := by
                unfold wadd W; omega
              rw [this]
              refine ⟨fun _ => by omega, fun h1 => ?_⟩
              rintro ⟨v, h2, h3⟩; omega
        simp only [subimageStart, subimageIdx, shiftCoords]
        by_cases hb : wadd (wsub c (n / 2)) i < s
        · rw [if_neg (by omega)]
          constructor
          · intro src hsrc
            obtain ⟨r, hr, rfl⟩ := Option.map_eq_some_iff.mp hsrc
            obtain ⟨g1, g2⟩ := ih1 r hr
            refine ⟨.cons hb g1, ?_⟩
            rw [List.map_cons, g2]
            congr 1
            exact hcoord.1 hb
          · intro hnone
            have hn := Option.map_eq_none_iff.mp hnone
            rintro ⟨src, g1, g2⟩
            cases g1 with
            | cons h1 h2 =>
              rw [List.map_cons] at g2
              injection g2 with g3 g4
              exact ih2 hn ⟨_, h2, g4⟩
        · rw [if_pos (by omega)]
          constructor
          · intro src hsrc; cases hsrc
          · intro _
            rintro ⟨src, g1, g2⟩
            cases g1 with
            | cons h1 h2 =>
              rw [List.map_cons] at g2
              injection g2 with g3 g4
              exact hcoord.2 hb ⟨_, h1, g3⟩

theorem subimage_spec (z : α) {im : Image α} (wf : im.WF) (newSizes centers : List Nat)
    (hl1 : newSizes.length = im.size.length) (hl2 : centers.length = im.size.length)
    (hfit : SubimageFits im.size newSizes centers) (hp : newSizes.prod < 2 ^ 64)
    (hp0 : 0 < newSizes.prod) (hs : ∀ n ∈ newSizes, n < 2 ^ 64) (d : α) :
    ∃ out, subimage im z newSizes centers d = .ok out ∧ out.WF ∧ out.size = newSizes ∧
      ∀ idx, InBounds newSizes idx →
        (∀ src, InBounds im.size src → src.map Int.ofNat = shiftCoords newSizes centers idx →
          out.at' idx = im.at' src) ∧
        ((¬ ∃ src, InBounds im.size src ∧ src.map Int.ofNat = shiftCoords newSizes centers idx) →
          out.at' idx = .ok d) := by
  have hof : Image.ofData (List.replicate (Image.prodW newSizes) z) newSizes
      = .ok ⟨newSizes, List.replicate newSizes.prod z⟩ := by
    rw [prodW_of_lt hp, Image.ofData, if_neg, if_neg]
    · rw [prodW_of_lt hp]; simp
    · simp only [List.isEmpty_iff, List.replicate_eq_nil_iff]; omega
  -- the value written at linear position `i`
  let val : Nat → α := fun i =>
    match linearToIndicesGo i newSizes 1 with
    | .ok oi =>
      match subimageIdx (subimageStart newSizes centers) oi im.size with
      | some ii => match im.at' ii with
        | .ok a => a
        | _ => d
      | none => d
    | _ => d
  have hlin : ∀ i, i < newSizes.prod → ∃ idx, linearToIndicesGo i newSizes 1 = .ok idx ∧
      InBounds newSizes idx ∧ rowMajor newSizes idx = i := by
    intro i hi
    obtain ⟨idx, h1, h2, h3⟩ := linearToIndicesGo_spec i newSizes 1 (by decide) (by simpa using hi)
      (by simpa [W] using hp)
    exact ⟨idx, h1, h2, by simpa using h3⟩
  have hloop := loop_setAll_full (n := newSizes.prod) (sz := newSizes) val
    (fun output idx => do
      let oi ← linearToIndicesStrides idx (subimageStrides newSizes 1) newSizes
      match subimageIdx (subimageStart newSizes centers) oi im.size with
      | some ii => do
        let v ← im.atRange ii
        output.setIndex idx v
      | none => output.setIndex idx d) (List.range newSizes.prod) (by simp) (by
        intro i hi dd hdd
        rw [List.mem_range] at hi
        obtain ⟨idx, h1, h2, h3⟩ := hlin i hi
        have hset : ∀ v, Image.setIndex ⟨newSizes, dd⟩ i v = .ok ⟨newSizes, dd.set i v⟩ := by
          intro v
          rw [Image.setIndex, Image.count, if_neg (by rw [prodW_of_lt hp]; omega)]
          simp [vset_eq_ok v (show i < dd.length by omega)]
        simp only [subimageStrides_eq, h1, Res.ok_bind, val]
        cases hsub : subimageIdx (subimageStart newSizes centers) idx im.size with
        | none => simp only [hset]
        | some ii =>
          have hb := ((subimageIdx_spec im.size newSizes centers idx hl1 hl2 hfit h2).1 ii hsub).1
          have hr : im.atRange ii = im.at' ii := by
            rw [wf.at' hb]
            simp [Image.atRange, checkEach_ok hb, wf.calculateIndex hb, vget_eq_ok (wf.rowMajor_lt hb)]
          simp only [hr, wf.at' hb, Res.ok_bind, hset])
    (List.replicate newSizes.prod z) (by simp)
  refine ⟨⟨newSizes, (List.range newSizes.prod).map val⟩, ?_, ?_, rfl, ?_⟩
  · rw [subimage, if_neg (by simp [Image.dim, hl1, hl2])]
    simp only [hof, Res.ok_bind]
    rw [forUp, Image.count, prodW_of_lt hp]
    exact hloop
  · exact ⟨by simp, hp, hs⟩
  · intro idx hidx
    have wf' : (⟨newSizes, (List.range newSizes.prod).map val⟩ : Image α).WF := ⟨by simp, hp, hs⟩
    have hat : (⟨newSizes, (List.range newSizes.prod).map val⟩ : Image α).at' idx
        = .ok (val (rowMajor newSizes idx)) := by
      rw [wf'.at' (show InBounds newSizes idx from hidx)]
      simp
    obtain ⟨idx', g1, g2, g3⟩ := hlin _ (rowMajor_lt hidx)
    have hii := rowMajor_inj g2 hidx g3
    subst hii
    have hval : val (rowMajor newSizes idx') = match subimageIdx (subimageStart newSizes centers) idx' im.size with
      | some ii => match im.at' ii with
        | .ok a => a
        | _ => d
      | none => d := by simp only [val, g1]
    obtain ⟨sp1, sp2⟩ := subimageIdx_spec im.size newSizes centers idx' hl1 hl2 hfit hidx
    rw [hat, hval]
    cases hsub : subimageIdx (subimageStart newSizes centers) idx' im.size with
    | none =>
      refine ⟨fun src h1 h2 => absurd ⟨src, h1, h2⟩ (sp2 hsub), fun _ => rfl⟩
    | some ii =>
      obtain ⟨q1, q2⟩ := sp1 ii hsub
      refine ⟨fun src h1 h2 => ?_, fun hno => absurd ⟨ii, q1, q2⟩ hno⟩
      have : src = ii := by
        have h3 : src.map Int.ofNat = ii.map Int.ofNat := by rw [h2, q2]
        exact (List.map_inj_right (fun a b hab => Int.ofNat.inj hab)).mp h3
      subst this
      simp only [wf.at' q1]

theorem subimage2d_shows (z : α) {im : Image α} {W H : Nat} {f : Nat → Nat → α}
    (s : im.Shows W H f) {w h cx cy : Nat} (hw : 0 < w) (hh : 0 < h) (hwh : w * h < 2 ^ 64)
    (hcx : cx + w < 2 ^ 64) (hcy : cy + h < 2 ^ 64) (hW : W + w / 2 ≤ 2 ^ 64)
    (hH : H + h / 2 ≤ 2 ^ 64) (d : α) :
    ∃ out, subimage2d im z w h cx cy d = .ok out ∧
      out.Shows w h (fun i j =>
        if (w / 2 ≤ cx + i ∧ cx + i - w / 2 < W) ∧ h / 2 ≤ cy + j ∧ cy + j - h / 2 < H
        then f (cx + i - w / 2) (cy + j - h / 2) else d) := by
  obtain ⟨out, e, wf, hsz, hpx⟩ := subimage_spec z s.wf [w, h] [cx, cy] (by simp [s.size])
    (by simp [s.size]) (by rw [s.size]; exact ⟨hcx, hW, hcy, hH, trivial⟩) (by simpa using hwh)
    (by simpa using Nat.mul_pos hw hh) (by
      intro n hn
      simp at hn
      rcases hn with rfl | rfl <;> omega) d
  refine ⟨out, e, wf, hsz, ?_⟩
  intro i j hi hj
  obtain ⟨p1, p2⟩ := hpx [i, j] (inBounds2.mpr ⟨hi, hj⟩)
  split
  · rename_i hin
    obtain ⟨⟨h1, h2⟩, h3, h4⟩ := hin
    rw [← s.px _ _ h2 h4]
    exact p1 [cx + i - w / 2, cy + j - h / 2] (s.bounds h2 h4) (by
      simp only [List.map_cons, List.map_nil, shiftCoords, Int.ofNat_eq_natCast]
      congr 1
      · omega
      · congr 1; omega)
  · rename_i hin
    refine p2 ?_
    rintro ⟨src, hb, he⟩
    rw [s.size] at hb
    cases hb with
    | cons hx hb =>
      cases hb with
      | cons hy hb =>
        cases hb
        simp only [List.map_cons, List.map_nil, shiftCoords, Int.ofNat_eq_natCast,
          List.cons.injEq, and_true] at he
        apply hin
        omega

end TinyDIP
