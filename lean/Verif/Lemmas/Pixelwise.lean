import Verif.Lemmas.Blocks
import Verif.Model.Pixelwise
import Mathlib.Algebra.Order.Ring.Defs
import Mathlib.Algebra.BigOperators.Group.List.Basic
import Mathlib.Algebra.Order.BigOperators.Group.List
import Mathlib.Tactic.Linarith

namespace TinyDIP

open Image

variable {α β γ : Type}

/-! ### loops writing the elements of a list -/

theorem loop_listSet {n : Nat} (v : Nat → β) (body : List β → Nat → Res (List β)) (l : List Nat)
    (hstep : ∀ i ∈ l, ∀ d : List β, d.length = n → body d i = .ok (d.set i (v i)))
    (d0 : List β) (hd : d0.length = n) (hcov : ∀ i, i < n → i ∈ l) :
    loop body l d0 = .ok ((List.range n).map v) := by
  have key : ∀ (l : List Nat) (d0 : List β), d0.length = n →
      (∀ i ∈ l, ∀ d : List β, d.length = n → body d i = .ok (d.set i (v i))) →
      ∃ d, loop body l d0 = .ok d ∧ d.length = n ∧
      (∀ i, i ∈ l → i < n → d[i]? = some (v i)) ∧ ∀ i, i ∉ l → d[i]? = d0[i]? := by
    intro l
    induction l with
    | nil => intro d0 hd _; exact ⟨d0, rfl, hd, by simp, by simp⟩
    | cons k l ih =>
      intro d0 hd hstep
      have h1 := hstep k (by simp) d0 hd
      obtain ⟨d, e, hl, hin, hout⟩ := ih (d0.set k (v k)) (by simpa using hd)
        (fun i hi => hstep i (by simp [hi]))
      refine ⟨d, by simp only [loop, h1, e], hl, ?_, ?_⟩
      · intro i hi hn
        by_cases hil : i ∈ l
        · exact hin i hil hn
        · have : i = k := by simpa [hil] using hi
          subst this
          rw [hout i hil, List.getElem?_set]
          simp [hd, hn]
      · intro i hi
        simp only [List.mem_cons, not_or] at hi
        rw [hout i hi.2, List.getElem?_set]
        simp [Ne.symm hi.1]
  obtain ⟨d, e, hl, hin, _⟩ := key l d0 hd hstep
  rw [e]
  congr 1
  apply List.ext_getElem?
  intro i
  by_cases hi : i < n
  · rw [hin i (hcov i hi) hi]; simp [hi]
  · rw [List.getElem?_eq_none (by omega), List.getElem?_eq_none (by simp; omega)]

/-- If the written values are the images of the elements of `l`, the result is the mapped list. -/
theorem loop_listMap {n : Nat} (l : List α) (hn : l.length = n) (f : α → β)
    (body : List β → Nat → Res (List β)) (order : List Nat)
    (hstep : ∀ i ∈ order, ∀ a, l[i]? = some a → ∀ d : List β, d.length = n →
      body d i = .ok (d.set i (f a)))
    (d0 : List β) (hd : d0.length = n) (hp : order.Perm (List.range n)) :
    loop body order d0 = .ok (l.map f) := by
  rcases Nat.eq_zero_or_pos n with h0 | h0
  · subst h0
    simp at hp
    subst hp
    cases d0 with
    | nil => cases l with
      | nil => rfl
      | cons => simp at hn
    | cons => simp at hd
  obtain ⟨a0, as, rfl⟩ : ∃ a as, l = a :: as := by
    cases l with
    | nil => simp at hn; omega
    | cons a as => exact ⟨a, as, rfl⟩
  have := loop_listSet (n := n) (fun i => f ((a0 :: as)[i]?.getD a0)) body order ?_ d0 hd
    (fun i hi => hp.mem_iff.mpr (List.mem_range.mpr hi))
  · rw [this]
    congr 1
    apply List.ext_getElem?
    intro i
    by_cases hi : i < n
    · have hi' : i < (a0 :: as).length := by omega
      rw [List.getElem?_map, List.getElem?_map, List.getElem?_range hi,
        List.getElem?_eq_getElem hi']
      simp only [Option.map_some, List.getElem?_eq_getElem hi', Option.getD_some]
    · rw [List.getElem?_eq_none (by simp; omega), List.getElem?_eq_none (by simp at hn ⊢; omega)]
  · intro i hi d hdl
    have hin : i < (a0 :: as).length := by
      rw [hn]; exact List.mem_range.mp (hp.mem_iff.mp hi)
    rw [hstep i hi _ (List.getElem?_eq_getElem hin) d hdl]
    simp [List.getElem?_eq_getElem hin]

/-! ### images built from element lists -/

theorem ofData_ok {d : List β} {sz : List Nat} (hl : d.length = sz.prod) (hf : sz.prod < 2 ^ 64)
    (h0 : 0 < sz.prod) : Image.ofData d sz = .ok ⟨sz, d⟩ := by
  rw [Image.ofData, if_neg, if_neg]
  · rw [prodW_of_lt hf]; simpa using hl
  · rw [List.isEmpty_iff]; rintro rfl; simp at hl; omega

theorem ofData_empty {d : List β} {sz : List Nat} (hl : d.length = 0) :
    Image.ofData d sz = .throw .runtime := by
  rw [Image.ofData, if_pos]; simpa [List.isEmpty_iff] using hl

theorem Image.WF.map {im : Image α} (wf : im.WF) (f : α → β) :
    (⟨im.size, im.data.map f⟩ : Image β).WF := ⟨by simpa using wf.len, wf.fits, wf.sizes⟩

theorem Image.WF.map_at {im : Image α} (wf : im.WF) (f : α → β) {idx : List Nat} {v : α}
    (h : im.at' idx = .ok v) : (⟨im.size, im.data.map f⟩ : Image β).at' idx = .ok (f v) := by
  have hb := inBounds_of_at'_ok h
  rw [wf.at' hb] at h
  injection h with h
  rw [(wf.map f).at' (show InBounds _ idx from hb)]
  simp [← h]

theorem Image.WF.count {im : Image α} (wf : im.WF) : im.count = im.data.length := by
  rw [Image.count, prodW_of_lt wf.fits, wf.len]

/-- Every stored element is seen through `at` at some coordinates, and conversely. -/
theorem Image.WF.mem_data_iff {im : Image α} (wf : im.WF) (v : α) :
    v ∈ im.data ↔ ∃ idx, im.at' idx = .ok v := by
  constructor
  · intro h
    obtain ⟨i, hi, rfl⟩ := List.getElem_of_mem h
    obtain ⟨idx, hb, hr⟩ := rowMajor_surj im.size i (by rw [← wf.len]; exact hi)
    exact ⟨idx, by rw [wf.at' hb]; simp [hr]⟩
  · rintro ⟨idx, h⟩
    have hb := inBounds_of_at'_ok h
    rw [wf.at' hb] at h
    injection h with h
    rw [← h]; exact List.getElem_mem _

theorem Image.WF.ext_data {a b : Image α} (wa : a.WF) (wb : b.WF) (hs : a.size = b.size)
    (h : ∀ idx v, a.at' idx = .ok v → b.at' idx = .ok v) : a = b := by
  cases a with
  | mk sa da =>
    cases b with
    | mk sb db =>
      simp only at hs
      subst hs
      congr 1
      apply List.ext_getElem
      · rw [wa.len, wb.len]
      · intro i h1 h2
        obtain ⟨idx, hb, hr⟩ := rowMajor_surj sa i (by rw [← wa.len]; exact h1)
        have e1 := wa.at' (show InBounds _ idx from hb)
        have e2 := wb.at' (show InBounds _ idx from hb)
        have := h idx _ e1
        rw [e2] at this
        injection this with this
        simp only [hr] at this
        exact this.symm

theorem zip_wf {a : Image α} {b : Image β} (wa : a.WF) (wb : b.WF) (h : a.size = b.size)
    (f : α → β → γ) : (⟨a.size, List.zipWith f a.data b.data⟩ : Image γ).WF := by
  have hlen : a.data.length = b.data.length := by rw [wa.len, wb.len, h]
  exact ⟨by simp [← hlen, wa.len], wa.fits, wa.sizes⟩

theorem zip_at {a : Image α} {b : Image β} (wa : a.WF) (wb : b.WF) (h : a.size = b.size)
    (f : α → β → γ) {idx : List Nat} {x : α} {y : β} (ha : a.at' idx = .ok x)
    (hb : b.at' idx = .ok y) :
    (⟨a.size, List.zipWith f a.data b.data⟩ : Image γ).at' idx = .ok (f x y) := by
  have hbnd : InBounds a.size idx := inBounds_of_at'_ok ha
  have hbnd' : InBounds b.size idx := h ▸ hbnd
  rw [wa.at' hbnd] at ha
  rw [wb.at' hbnd'] at hb
  injection ha with ha
  injection hb with hb
  rw [(zip_wf wa wb h f).at' (show InBounds _ idx from hbnd)]
  simp only [List.getElem_zipWith, ← ha, ← hb, h]

theorem pixelwiseTransform_ok (op : α → β) {im : Image α} (wf : im.WF) (h0 : 0 < im.size.prod) :
    pixelwiseTransform op im = .ok ⟨im.size, im.data.map op⟩ :=
  ofData_ok (by simpa using wf.len) wf.fits h0

theorem pixelwiseTransform2_ok (op : α → β → γ) {a : Image α} {b : Image β} (wa : a.WF) (wb : b.WF)
    (h : a.size = b.size) (h0 : 0 < a.size.prod) :
    pixelwiseTransform2 op a b = .ok ⟨a.size, List.zipWith op a.data b.data⟩ := by
  have hlen : a.data.length = b.data.length := by rw [wa.len, wb.len, h]
  rw [pixelwiseTransform2, stdTransform2_eq op _ _ hlen, Res.ok_bind]
  exact ofData_ok (by simp [← hlen, wa.len]) wa.fits h0

/-! ### reductions -/

theorem foldl_acc (f : α → α → α) (hassoc : ∀ a b c, f (f a b) c = f a (f b c)) (a b : α)
    (l : List α) : l.foldl f (f a b) = f a (l.foldl f b) := by
  induction l generalizing b with
  | nil => rfl
  | cons x l ih => simp only [List.foldl_cons, hassoc, ih]

theorem brackets_eq (f : α → α → α) (hassoc : ∀ a b c, f (f a b) c = f a (f b c)) {l : List α}
    {v : α} (h : Brackets f l v) : ∃ a as, l = a :: as ∧ v = as.foldl f a := by
  induction h with
  | one a => exact ⟨a, [], rfl, rfl⟩
  | @node l₁ l₂ a b _ _ ih1 ih2 =>
    obtain ⟨a1, as1, rfl, rfl⟩ := ih1
    obtain ⟨a2, as2, rfl, rfl⟩ := ih2
    refine ⟨a1, as1 ++ a2 :: as2, rfl, ?_⟩
    rw [List.foldl_append, List.foldl_cons, foldl_acc f hassoc]

theorem foldl_perm_cons (f : α → α → α) (hassoc : ∀ a b c, f (f a b) c = f a (f b c))
    (hcomm : ∀ a b, f a b = f b a) {l m : List α} (hp : l.Perm m) :
    ∀ {a : α} {as : List α} {b : α} {bs : List α}, l = a :: as → m = b :: bs →
      as.foldl f a = bs.foldl f b := by
  induction hp with
  | nil => intro a as b bs h; cases h
  | cons x h ih =>
    intro a as b bs h1 h2
    cases h1; cases h2
    rename_i l₁ l₂
    cases l₁ with
    | nil => simp at h; subst h; rfl
    | cons c cs =>
      cases l₂ with
      | nil => simp at h
      | cons d ds =>
        have := ih (a := c) (as := cs) (b := d) (bs := ds) rfl rfl
        simp only [List.foldl_cons, foldl_acc f hassoc, this]
  | swap x y l =>
    intro a as b bs h1 h2
    cases h1; cases h2
    simp only [List.foldl_cons, hcomm x y]
  | trans h1 h2 ih1 ih2 =>
    intro a as b bs e1 e2
    rename_i l₁ l₂ l₃
    cases l₂ with
    | nil => subst e1; simp at h1
    | cons c cs => exact (ih1 e1 rfl).trans (ih2 rfl e2)

theorem stdReduce_eq (f : α → α → α) (hassoc : ∀ a b c, f (f a b) c = f a (f b c))
    (hcomm : ∀ a b, f a b = f b a) {init : α} {l : List α} {v : α} (h : StdReduce f init l v) :
    v = l.foldl f init := by
  obtain ⟨p, hp, hb⟩ := h
  obtain ⟨a, as, rfl, rfl⟩ := brackets_eq f hassoc hb
  exact foldl_perm_cons f hassoc hcomm hp rfl rfl

theorem brackets_foldl (f : α → α → α) (a : α) (l : List α) : Brackets f (a :: l) (l.foldl f a) := by
  have key : ∀ (l pre : List α) (v : α), Brackets f pre v → Brackets f (pre ++ l) (l.foldl f v) := by
    intro l
    induction l with
    | nil => intro pre v h; simpa using h
    | cons x l ih =>
      intro pre v h
      have := ih (pre ++ [x]) (f v x) (.node h (.one x))
      simpa using this
  exact key l [a] a (.one a)

/-- The sequential left-to-right reduction is one of the allowed results. -/
theorem stdReduce_exists (f : α → α → α) (init : α) (l : List α) :
    StdReduce f init l (l.foldl f init) := ⟨_, .refl _, brackets_foldl f init l⟩

/-- Loops whose iterations preserve a property when they succeed. -/
theorem loop_ok_inv {σ : Type} {body : σ → β → Res σ} (P : σ → Prop) {l : List β}
    (hstep : ∀ b ∈ l, ∀ s s', P s → body s b = .ok s' → P s') :
    ∀ {s s' : σ}, P s → loop body l s = .ok s' → P s' := by
  induction l with
  | nil => intro s s' h e; injection e with e; exact e ▸ h
  | cons b l ih =>
    intro s s' h e
    rw [loop] at e
    split at e
    · rename_i s1 e1
      exact ih (fun b hb => hstep b (by simp [hb])) (hstep b (by simp) s s1 h e1) e
    · cases e
    · cases e

/-- Loops whose iterations never run into undefined behaviour. -/
theorem loop_safe {σ : Type} {body : σ → β → Res σ} (P : σ → Prop) {l : List β}
    (hstep : ∀ b ∈ l, ∀ s, P s → (∃ s', body s b = .ok s' ∧ P s') ∨ ∃ e, body s b = .throw e) :
    ∀ {s : σ}, P s → (∃ s', loop body l s = .ok s' ∧ P s') ∨ ∃ e, loop body l s = .throw e := by
  induction l with
  | nil => intro s h; exact .inl ⟨s, rfl, h⟩
  | cons b l ih =>
    intro s h
    rcases hstep b (by simp) s h with ⟨s', e, h'⟩ | ⟨e, he⟩
    · simp only [loop, e]
      exact ih (fun b hb => hstep b (by simp [hb])) h'
    · exact .inr ⟨e, by simp only [loop, he]⟩

/-- A loop that writes `v` at the listed positions satisfying `c`. -/
theorem loop_condWrite (c : Nat × Nat → Bool) (v : α) (l : List (Nat × Nat)) {im : Image α}
    {W H : Nat} {f : Nat → Nat → α} (s : im.Shows W H f)
    (hb : ∀ p ∈ l, c p = true → p.1 < W ∧ p.2 < H) :
    ∃ out, loop (fun (o : Image α) p => if c p then o.set2 p.1 p.2 v else .ok o) l im = .ok out ∧
      out.Shows W H fun x y => if (x, y) ∈ l ∧ c (x, y) = true then v else f x y := by
  induction l generalizing im f with
  | nil => exact ⟨im, rfl, by simpa using s⟩
  | cons p l ih =>
    by_cases hc : c p = true
    · obtain ⟨h1, h2⟩ := hb p (by simp) hc
      obtain ⟨o, e, so⟩ := s.set2 h1 h2 v
      obtain ⟨out, e', so'⟩ := ih so (fun q hq => hb q (by simp [hq]))
      refine ⟨out, by rw [loop, if_pos hc, e]; exact e', so'.congr ?_⟩
      intro x y _ _
      simp only [updPx, List.mem_cons]
      by_cases hp : x = p.1 ∧ y = p.2
      · have : (x, y) = p := Prod.ext hp.1 hp.2
        simp [hp, hc]
      · have : (x, y) ≠ p := fun h => hp ⟨congrArg Prod.fst h, congrArg Prod.snd h⟩
        simp [hp, this]
    · obtain ⟨out, e', so'⟩ := ih s (fun q hq => hb q (by simp [hq]))
      refine ⟨out, by rw [loop, if_neg hc]; exact e', so'.congr ?_⟩
      intro x y _ _
      simp only [List.mem_cons]
      by_cases hp : (x, y) = p
      · subst hp; simp [hc]
      · simp [hp]

/-- A counting loop that appends one element per iteration. -/
theorem forUp_collect {n : Nat} (body : List β → Nat → Res (List β)) (d : List β) (init : List β)
    (hd : d.length = n) (hstep : ∀ i (_ : i < n) out, body out i = .ok (out ++ [d[i]])) :
    forUp n body init = .ok (init ++ d) := by
  obtain ⟨s', e, h⟩ := forUp_inv (n := n) (body := body) (fun k s => s = init ++ d.take k)
    (fun k s hk hs => ⟨_, hstep k hk s, by
      rw [hs, List.append_assoc, List.take_succ_eq_append_getElem (by omega)]⟩) init (by simp)
  rw [e, h, ← hd, List.take_length]

end TinyDIP
