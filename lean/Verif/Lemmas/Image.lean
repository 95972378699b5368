import Verif.Spec.Grid

namespace TinyDIP

theorem W_pos : 0 < W := by decide
theorem W_eq : W = 2 ^ 64 := rfl

/-! ### Products and indices modulo 2^64 -/

theorem foldl_wmul (l : List Nat) (a : Nat) : (l.foldl wmul (a % W)) = (a * l.prod) % W := by
  induction l generalizing a with
  | nil => simp
  | cons s ss ih =>
    have : wmul (a % W) s = (a * s) % W := by simp [wmul, Nat.mod_mul_mod]
    rw [List.foldl_cons, this, ih, List.prod_cons, Nat.mul_assoc]

theorem prodW_eq (l : List Nat) : Image.prodW l = l.prod % W := by
  simp only [Image.prodW, foldl_wmul, Nat.one_mul]

theorem prodW_of_lt {l : List Nat} (h : l.prod < 2 ^ 64) : Image.prodW l = l.prod := by
  rw [prodW_eq]; exact Nat.mod_eq_of_lt h

theorem calculateIndexGo_eq (ss is : List Nat) (hl : is.length ≤ ss.length) (index stride : Nat) :
    Image.calculateIndexGo ss is (index % W) (stride % W)
      = .ok ((index + stride * rowMajor ss is) % W) := by
  induction is generalizing ss index stride with
  | nil => cases ss <;> simp [Image.calculateIndexGo, rowMajor]
  | cons i is ih =>
    cases ss with
    | nil => simp at hl
    | cons s ss =>
      have h1 : wadd (index % W) (wmul i (stride % W)) = (index + stride * i) % W := by
        simp [wadd, wmul, Nat.mul_comm i]
      have h2 : wmul (stride % W) s = (stride * s) % W := by simp [wmul]
      rw [Image.calculateIndexGo, h1, h2, ih ss (by simpa using hl), rowMajor]
      congr 2
      rw [Nat.mul_add, Nat.add_assoc, Nat.mul_assoc]

theorem calculateIndex_eq {α : Type} (im : Image α) (idx : List Nat)
    (hl : idx.length ≤ im.size.length) :
    im.calculateIndex idx = .ok (rowMajor im.size idx % W) := by
  have := calculateIndexGo_eq im.size idx hl 0 1
  simpa [Image.calculateIndex, W] using this

theorem InBounds.length_eq {ss is : List Nat} (h : InBounds ss is) : is.length = ss.length :=
  List.Forall₂.length_eq h

theorem rowMajor_lt {ss is : List Nat} (h : InBounds ss is) : rowMajor ss is < ss.prod := by
  unfold InBounds at h
  induction h with
  | nil => simp [rowMajor]
  | @cons i s is ss hi _ ih =>
    rw [rowMajor, List.prod_cons]
    calc i + s * rowMajor ss is < s + s * rowMajor ss is := by omega
      _ = s * (rowMajor ss is + 1) := by rw [Nat.mul_add]; omega
      _ ≤ s * ss.prod := Nat.mul_le_mul_left _ ih

theorem rowMajor_inj {ss is js : List Nat} (hi : InBounds ss is) (hj : InBounds ss js)
    (h : rowMajor ss is = rowMajor ss js) : is = js := by
  unfold InBounds at *
  induction hi generalizing js with
  | nil => cases hj; rfl
  | @cons i s is ss hi _ ih =>
    cases hj with
    | @cons j _ js _ hj' hjs =>
      simp only [rowMajor] at h
      have e1 : i = j := by
        have := congrArg (· % s) h
        simpa [Nat.add_mul_mod_self_left, Nat.mod_eq_of_lt hi, Nat.mod_eq_of_lt hj'] using this
      subst e1
      have e2 : rowMajor ss is = rowMajor ss js :=
        Nat.eq_of_mul_eq_mul_left (by omega : 0 < s) (by omega)
      rw [ih hjs e2]

theorem rowMajor_surj (ss : List Nat) (n : Nat) (h : n < ss.prod) :
    ∃ is, InBounds ss is ∧ rowMajor ss is = n := by
  unfold InBounds
  induction ss generalizing n with
  | nil => exact ⟨[], .nil, by simp at h; simp [rowMajor, h]⟩
  | cons s ss ih =>
    have hs : 0 < s := by
      rcases Nat.eq_zero_or_pos s with h0 | h0
      · subst h0; simp at h
      · exact h0
    rw [List.prod_cons] at h
    obtain ⟨is, hb, hr⟩ := ih (n / s) (Nat.div_lt_of_lt_mul h)
    exact ⟨(n % s) :: is, .cons (Nat.mod_lt _ hs) hb, by
      rw [rowMajor, hr]; exact Nat.mod_add_div n s⟩

/-! ### The checks -/

theorem checkEach_ok {ss is : List Nat} (h : InBounds ss is) : Image.checkEach ss is = .ok () := by
  unfold InBounds at h
  induction h with
  | nil => rfl
  | cons hi _ ih => simp [Image.checkEach, Nat.not_le.mpr hi, ih]

theorem checkEach_throw {ss is : List Nat} (hl : is.length = ss.length) (h : ¬ InBounds ss is) :
    Image.checkEach ss is = .throw .outOfRange := by
  unfold InBounds at h
  induction is generalizing ss with
  | nil =>
    cases ss with
    | nil => exact absurd .nil h
    | cons => simp at hl
  | cons i is ih =>
    cases ss with
    | nil => simp at hl
    | cons s ss =>
      by_cases hi : i ≥ s
      · simp [Image.checkEach, hi]
      · rw [Image.checkEach, if_neg hi]
        exact ih (by simpa using hl) fun hb => h (.cons (by omega) hb)

theorem checkTupleEach_iff {ss is : List Nat} (hl : is.length = ss.length) :
    Image.checkTupleEach ss is = true ↔ InBounds ss is := by
  unfold InBounds
  induction is generalizing ss with
  | nil => cases ss <;> simp_all [Image.checkTupleEach]
  | cons i is ih =>
    cases ss with
    | nil => simp at hl
    | cons s ss =>
      by_cases hi : i ≥ s
      · simp [Image.checkTupleEach, hi]; intro h; omega
      · simp [Image.checkTupleEach, hi, ih (by simpa using hl)]; omega

variable {α : Type}

theorem Image.WF.rowMajor_lt {im : Image α} (wf : im.WF) {idx : List Nat}
    (h : InBounds im.size idx) : rowMajor im.size idx < im.data.length := by
  rw [wf.len]; exact TinyDIP.rowMajor_lt h

theorem Image.WF.calculateIndex {im : Image α} (wf : im.WF) {idx : List Nat}
    (h : InBounds im.size idx) : im.calculateIndex idx = .ok (rowMajor im.size idx) := by
  rw [calculateIndex_eq im idx (Nat.le_of_eq h.length_eq), Nat.mod_eq_of_lt]
  exact Nat.lt_trans (TinyDIP.rowMajor_lt h) wf.fits

theorem Image.WF.posUnchecked {im : Image α} (wf : im.WF) {idx : List Nat}
    (h : InBounds im.size idx) : im.posUnchecked idx = .ok (rowMajor im.size idx) := by
  simp [Image.posUnchecked, h.length_eq, wf.calculateIndex h]

theorem vget_eq_ok {l : List α} {i : Nat} (h : i < l.length) : vget l i = .ok l[i] := by
  simp [vget, h]

theorem vset_eq_ok {l : List α} {i : Nat} (v : α) (h : i < l.length) :
    vset l i v = .ok (l.set i v) := by simp [vset, h]

theorem Image.WF.atUnchecked {im : Image α} (wf : im.WF) {idx : List Nat}
    (h : InBounds im.size idx) :
    im.atUnchecked idx = .ok (im.data[rowMajor im.size idx]'(wf.rowMajor_lt h)) := by
  simp [Image.atUnchecked, wf.posUnchecked h, vget_eq_ok (wf.rowMajor_lt h)]

theorem Image.WF.at' {im : Image α} (wf : im.WF) {idx : List Nat}
    (h : InBounds im.size idx) :
    im.at' idx = .ok (im.data[rowMajor im.size idx]'(wf.rowMajor_lt h)) := by
  simp [Image.at', Image.checkBoundary, h.length_eq, checkEach_ok h, wf.atUnchecked h]

theorem Image.WF.setAtUnchecked {im : Image α} (wf : im.WF) {idx : List Nat} (v : α)
    (h : InBounds im.size idx) :
    im.setAtUnchecked idx v = .ok ⟨im.size, im.data.set (rowMajor im.size idx) v⟩ := by
  simp [Image.setAtUnchecked, wf.posUnchecked h, vset_eq_ok v (wf.rowMajor_lt h)]

theorem Image.WF.setAt {im : Image α} (wf : im.WF) {idx : List Nat} (v : α)
    (h : InBounds im.size idx) :
    im.setAt idx v = .ok ⟨im.size, im.data.set (rowMajor im.size idx) v⟩ := by
  simp [Image.setAt, Image.checkBoundary, h.length_eq, checkEach_ok h, wf.setAtUnchecked v h]

theorem Image.WF.set_wf {im : Image α} (wf : im.WF) (i : Nat) (v : α) :
    (⟨im.size, im.data.set i v⟩ : Image α).WF :=
  ⟨by simpa using wf.len, wf.fits, wf.sizes⟩

/-! ### Two-dimensional images -/

theorem inBounds2 {w h x y : Nat} : InBounds [w, h] [x, y] ↔ x < w ∧ y < h := by
  simp [InBounds]

theorem rowMajor2 (w h x y : Nat) : rowMajor [w, h] [x, y] = x + w * y := by
  simp [rowMajor]

theorem at2_oob {im : Image α} {w h : Nat} (hs : im.size = [w, h]) {x y : Nat}
    (hb : ¬ (x < w ∧ y < h)) : im.at2 x y = .throw .outOfRange := by
  have : ¬ InBounds im.size [x, y] := by rw [hs, inBounds2]; exact hb
  simp [Image.at2, Image.at', Image.checkBoundary, hs]
  rw [hs] at this
  rw [checkEach_throw (by simp) this]; rfl

theorem set2_oob {im : Image α} {w h : Nat} (hs : im.size = [w, h]) {x y : Nat} (v : α)
    (hb : ¬ (x < w ∧ y < h)) : im.set2 x y v = .throw .outOfRange := by
  have : ¬ InBounds im.size [x, y] := by rw [hs, inBounds2]; exact hb
  simp [Image.set2, Image.setAt, Image.checkBoundary, hs]
  rw [hs] at this
  rw [checkEach_throw (by simp) this]; rfl

namespace Image.Shows

variable {im : Image α} {w h : Nat} {f : Nat → Nat → α}

theorem bounds (s : im.Shows w h f) {x y : Nat} (hx : x < w) (hy : y < h) :
    InBounds im.size [x, y] := by rw [s.size, inBounds2]; exact ⟨hx, hy⟩

theorem width (s : im.Shows w h f) : im.width = w := by simp [Image.width, s.size]
theorem height (s : im.Shows w h f) : im.height = h := by simp [Image.height, s.size]
theorem dim (s : im.Shows w h f) : im.dim = 2 := by simp [Image.dim, s.size]

theorem fits (s : im.Shows w h f) : w * h < 2 ^ 64 := by
  have := s.wf.fits; simpa [s.size] using this

theorem w_lt (s : im.Shows w h f) : w < 2 ^ 64 := s.wf.sizes w (by simp [s.size])
theorem h_lt (s : im.Shows w h f) : h < 2 ^ 64 := s.wf.sizes h (by simp [s.size])

theorem len (s : im.Shows w h f) : im.data.length = w * h := by
  have := s.wf.len; simpa [s.size] using this

theorem count (s : im.Shows w h f) : im.count = w * h := by
  rw [Image.count, prodW_of_lt s.wf.fits, s.size]; simp

theorem idx_lt (s : im.Shows w h f) {x y : Nat} (hx : x < w) (hy : y < h) :
    x + w * y < im.data.length := by
  have := s.wf.rowMajor_lt (s.bounds hx hy)
  rwa [s.size, rowMajor2] at this

theorem data (s : im.Shows w h f) {x y : Nat} (hx : x < w) (hy : y < h) :
    im.data[x + w * y]'(s.idx_lt hx hy) = f x y := by
  have h1 := s.px x y hx hy
  rw [Image.at2, s.wf.at' (s.bounds hx hy)] at h1
  injection h1 with h1
  rw [← h1]
  congr 1
  rw [s.size, rowMajor2]

theorem data? (s : im.Shows w h f) {x y : Nat} (hx : x < w) (hy : y < h) :
    im.data[x + w * y]? = some (f x y) := by
  rw [List.getElem?_eq_getElem (s.idx_lt hx hy), s.data hx hy]

theorem at2u (s : im.Shows w h f) {x y : Nat} (hx : x < w) (hy : y < h) :
    im.at2u x y = .ok (f x y) := by
  rw [Image.at2u, s.wf.atUnchecked (s.bounds hx hy)]
  congr 1
  have := s.data hx hy
  rw [← this]; congr 1; rw [s.size, rowMajor2]

/-- Build `Shows` from the raw layout. -/
theorem of_data {im : Image α} {w h : Nat} {f : Nat → Nat → α} (hw : w < 2 ^ 64) (hh : h < 2 ^ 64)
    (hwh : w * h < 2 ^ 64) (hs : im.size = [w, h]) (hl : im.data.length = w * h)
    (hd : ∀ x y, x < w → y < h → im.data[x + w * y]? = some (f x y)) : im.Shows w h f := by
  have wf : im.WF := ⟨by simp [hl, hs], by simpa [hs] using hwh, by simp [hs, hw, hh]⟩
  refine ⟨wf, hs, fun x y hx hy => ?_⟩
  have hb : InBounds im.size [x, y] := by rw [hs, inBounds2]; exact ⟨hx, hy⟩
  rw [Image.at2, wf.at' hb]
  congr 1
  have h1 := hd x y hx hy
  rw [List.getElem?_eq_some_iff] at h1
  obtain ⟨h2, h3⟩ := h1
  rw [← h3]; congr 1; rw [hs, rowMajor2]

theorem congr {g : Nat → Nat → α} (s : im.Shows w h f)
    (hfg : ∀ x y, x < w → y < h → f x y = g x y) : im.Shows w h g :=
  ⟨s.wf, s.size, fun x y hx hy => by rw [s.px x y hx hy, hfg x y hx hy]⟩

theorem set_shows (s : im.Shows w h f) {x y : Nat} (hx : x < w) (hy : y < h) (v : α) :
    (⟨im.size, im.data.set (rowMajor im.size [x, y]) v⟩ : Image α).Shows w h (updPx f x y v) := by
  have wf' := s.wf.set_wf (rowMajor im.size [x, y]) v
  refine ⟨wf', s.size, fun a b ha hb => ?_⟩
  have hin : InBounds im.size [a, b] := s.bounds ha hb
  rw [Image.at2, wf'.at' (by exact hin)]
  congr 1
  simp only [List.getElem_set, updPx]
  by_cases hab : a = x ∧ b = y
  · obtain ⟨rfl, rfl⟩ := hab
    simp
  · have hne : rowMajor im.size [x, y] ≠ rowMajor im.size [a, b] := by
      intro he
      have := rowMajor_inj (s.bounds hx hy) hin he
      simp at this; exact hab ⟨this.1.symm, this.2.symm⟩
    rw [if_neg hne, if_neg hab, ← s.data ha hb]
    congr 1; rw [s.size, rowMajor2]

/-- Writing one pixel with the checked accessor. -/
theorem set2 (s : im.Shows w h f) {x y : Nat} (hx : x < w) (hy : y < h) (v : α) :
    ∃ im', im.set2 x y v = .ok im' ∧ im'.Shows w h (updPx f x y v) :=
  ⟨_, s.wf.setAt v (s.bounds hx hy), s.set_shows hx hy v⟩

theorem set2u (s : im.Shows w h f) {x y : Nat} (hx : x < w) (hy : y < h) (v : α) :
    ∃ im', im.set2u x y v = .ok im' ∧ im'.Shows w h (updPx f x y v) :=
  ⟨_, s.wf.setAtUnchecked v (s.bounds hx hy), s.set_shows hx hy v⟩

/-- Extensionality: two images showing the same pixels are equal. -/
theorem ext {im' : Image α} {g : Nat → Nat → α} (s : im.Shows w h f) (s' : im'.Shows w h g)
    (hfg : ∀ x y, x < w → y < h → f x y = g x y) : im = im' := by
  have hsz : im.size = im'.size := by rw [s.size, s'.size]
  have hd : im.data = im'.data := by
    apply List.ext_getElem?
    intro i
    by_cases hi : i < w * h
    · have hw : 0 < w := by
        rcases Nat.eq_zero_or_pos w with h0 | h0
        · subst h0; simp at hi
        · exact h0
      have hx : i % w < w := Nat.mod_lt _ hw
      have hy : i / w < h := Nat.div_lt_of_lt_mul hi
      have e : i = i % w + w * (i / w) := (Nat.mod_add_div i w).symm
      rw [e, s.data? hx hy, s'.data? hx hy, hfg _ _ hx hy]
    · rw [List.getElem?_eq_none (by rw [s.len]; omega),
        List.getElem?_eq_none (by rw [s'.len]; omega)]
  cases im; cases im'; simp_all

end Image.Shows

/-- The value-initialised image of given width and height. -/
theorem ofSizes_shows (z : α) {w h : Nat} (hw : w < 2 ^ 64) (hh : h < 2 ^ 64)
    (hwh : w * h < 2 ^ 64) : (Image.ofSizes z [w, h]).Shows w h (fun _ _ => z) := by
  refine Image.Shows.of_data hw hh hwh rfl ?_ ?_
  · simp [Image.ofSizes, prodW_eq, W]; exact hwh
  · intro x y hx hy
    have : x + w * y < w * h := by
      calc x + w * y < w + w * y := by omega
        _ = w * (y + 1) := by rw [Nat.mul_add]; omega
        _ ≤ w * h := Nat.mul_le_mul_left _ hy
    simp [Image.ofSizes, prodW_eq, W, List.getElem?_replicate]
    rw [Nat.mod_eq_of_lt hwh]; exact this

/-- Every well-formed 2-D image shows some pixel function. -/
theorem Image.WF.shows [Inhabited α] {im : Image α} (wf : im.WF) {w h : Nat}
    (hs : im.size = [w, h]) :
    im.Shows w h (fun x y => (im.data[x + w * y]?).getD Inhabited.default) := by
  refine ⟨wf, hs, fun x y hx hy => ?_⟩
  have hb : InBounds im.size [x, y] := by rw [hs, inBounds2]; exact ⟨hx, hy⟩
  have hl := wf.rowMajor_lt hb
  rw [Image.at2, wf.at' hb]
  simp only [hs, rowMajor2] at hl ⊢
  rw [List.getElem?_eq_getElem hl]; rfl

/-- A 2-D image with at least one pixel: no `Inhabited` needed. -/
theorem Image.WF.exists_shows {im : Image α} (wf : im.WF) {w h : Nat}
    (hs : im.size = [w, h]) (a : α) : ∃ f, im.Shows w h f :=
  ⟨_, @Image.WF.shows α ⟨a⟩ im wf w h hs⟩

theorem stdTransform2_eq {β γ : Type} (f : α → β → γ) (l : List α) (m : List β)
    (hm : l.length = m.length) : Image.stdTransform2 f l m = .ok (List.zipWith f l m) := by
  induction l generalizing m with
  | nil => simp [Image.stdTransform2]
  | cons x xs ih =>
    cases m with
    | nil => simp at hm
    | cons y ys => simp [Image.stdTransform2, ih ys (by simpa using hm)]

/-- A successful checked read means the coordinates are in bounds. -/
theorem inBounds_of_at'_ok {im : Image α} {idx : List Nat} {v : α} (h : im.at' idx = .ok v) :
    InBounds im.size idx := by
  by_contra hc
  by_cases hl : idx.length = im.size.length
  · simp [Image.at', Image.checkBoundary, hl, checkEach_throw hl hc] at h
  · simp [Image.at', Image.checkBoundary, hl] at h

end TinyDIP
