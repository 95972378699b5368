import Verif.Lemmas.Samples
import Verif.Spec.Print
import Verif.Lemmas.ShowsN
import Verif.Lemmas.Text
import Verif.Spec.Recursive
import Mathlib.Tactic.Choose

/-!
# Properties C173, C174: printing images and nested containers
-/

namespace TinyDIP.Props

open TinyDIP TinyDIP.Cli TinyDIP.Print

variable {α : Type}

/-! ## What is written -/

theorem loop_text {body : List Nat × Str → Nat → Res (List Nat × Str)} {P : List Nat → Prop} {g : Nat → Str}
    (l : List Nat)
    (hb : ∀ i ∈ l, ∀ ix out, P ix → ∃ ix', P ix' ∧ body (ix, out) i = .ok (ix', out ++ g i))
    (ix : List Nat) (out : Str) (h : P ix) :
    ∃ ix', P ix' ∧ loop body l (ix, out) = .ok (ix', out ++ l.flatMap g) := by
  induction l generalizing ix out with
  | nil => exact ⟨ix, h, by simp [loop]⟩
  | cons i l ih =>
    obtain ⟨ix1, h1, e1⟩ := hb i (by simp) ix out h
    obtain ⟨ix2, h2, e2⟩ := ih (fun j hj => hb j (by simp [hj])) ix1 (out ++ g i) h1
    refine ⟨ix2, h2, ?_⟩
    rw [loop, e1]
    simp only [e2, List.flatMap_cons, List.append_assoc]

theorem layout_cons (el : α → Str) (sep : Str) (f : List Nat → α) (n : Nat) (l : List Nat) (hl : l ≠ [])
    (outer : List Nat) :
    layout el sep f (n :: l) outer =
      ((List.range n).flatMap fun i => layout el sep f l (i :: outer) ++ ['\n']) ++ ['\n'] := by
  cases l with
  | nil => exact absurd rfl hl
  | cons m l => rfl

theorem atRange_shows {im : Image α} {sz : List Nat} {f : List Nat → α} (s : im.ShowsN sz f) {idx : List Nat}
    (h : InBounds sz idx) : im.atRangeUnchecked idx = .ok (f idx) := by
  have h' : InBounds im.size idx := by rw [s.size]; exact h
  rw [← s.getU h, Image.atRangeUnchecked, Image.atUnchecked, s.wf.posUnchecked h', s.wf.calculateIndex h']

theorem helper_eq {im : Image α} {sz : List Nat} {f : List Nat → α} (s : im.ShowsN sz f) (el : α → Str)
    (sep : Str) (pre : List Nat) : ∀ (d : Nat) (post outer : List Nat), sz = pre ++ post → pre.length = d + 1 →
    InBounds post outer → ∀ (ix : List Nat) (out : Str), ix.length = sz.length → ix.drop (d + 1) = outer →
    ∃ ix', ix'.length = sz.length ∧ ix'.drop (d + 1) = outer ∧
      helper im el sep d (ix, out) = .ok (ix', out ++ layout el sep f pre.reverse outer) := by
  induction pre using List.reverseRecOn with
  | nil => intro d post outer _ h; simp at h
  | append_singleton pre n ih =>
    intro d post outer hsz hlen hb ix out hix hdrop
    have hs : im.size = pre ++ [n] ++ post := by rw [s.size, hsz]
    cases d with
    | zero =>
      have hp : pre = [] := by simpa using hlen
      subst hp
      have hn : vget im.size 0 = .ok n := by rw [hs]; rfl
      obtain ⟨ix', ⟨h1, h2⟩, e⟩ := loop_text (P := fun ix => ix.length = sz.length ∧ ix.drop 1 = outer)
        (g := fun i => el (f (i :: outer)) ++ sep)
        (body := fun st i => do
          let ix ← vset st.1 0 i
          let v ← im.atRangeUnchecked ix
          .ok (ix, st.2 ++ el v ++ sep)) (List.range n) (by
            intro i hi ix out ⟨h1, h2⟩
            cases ix with
            | nil => rw [hsz] at h1; simp at h1
            | cons a ix =>
              have h2' : ix = outer := by simpa using h2
              subst h2'
              refine ⟨i :: ix, ⟨by simpa using h1, by simp⟩, ?_⟩
              have hib : InBounds sz (i :: ix) := by
                rw [hsz]; exact List.Forall₂.cons (List.mem_range.1 hi) hb
              rw [show vset (a :: ix) 0 i = .ok (i :: ix) from rfl, Res.ok_bind, atRange_shows s hib,
                Res.ok_bind, List.append_assoc]) ix out ⟨hix, hdrop⟩
      refine ⟨ix', h1, h2, ?_⟩
      rw [helper, hn, Res.ok_bind, forUp, e]
      rfl
    | succ d =>
      have hpl : pre.length = d + 1 := by simpa using hlen
      have hn : vget im.size (d + 1) = .ok n := by
        have hlt : d + 1 < im.size.length := by rw [hs]; simp; omega
        rw [vget_eq_ok hlt]
        congr 1
        simp [hs, ← hpl]
      obtain ⟨ix', ⟨h1, h2⟩, e⟩ := loop_text (P := fun ix => ix.length = sz.length ∧ ix.drop (d + 1 + 1) = outer)
        (g := fun i => layout el sep f pre.reverse (i :: outer) ++ ['\n'])
        (body := fun st i => do
          let ix ← vset st.1 (d + 1) i
          let st ← helper im el sep d (ix, st.2)
          .ok (st.1, st.2 ++ ['\n'])) (List.range n) (by
            intro i hi ix out ⟨h1, h2⟩
            have hlt : d + 1 < ix.length := by rw [h1, hsz]; simp; omega
            have hd : (ix.set (d + 1) i).drop (d + 1) = i :: outer := by
              rw [List.drop_eq_getElem_cons (by simpa using hlt), List.getElem_set_self,
                List.drop_set_of_lt (by omega), h2]
            obtain ⟨ix2, g1, g2, e2⟩ := ih d (n :: post) (i :: outer) (by rw [hsz]; simp) hpl
              (List.Forall₂.cons (List.mem_range.1 hi) hb) (ix.set (d + 1) i) out (by simpa using h1) hd
            refine ⟨ix2, ⟨g1, ?_⟩, ?_⟩
            · rw [show d + 1 + 1 = (d + 1) + 1 from rfl, ← List.drop_drop, g2]; rfl
            · rw [vset_eq_ok _ hlt, Res.ok_bind, e2, Res.ok_bind]
              simp [List.append_assoc]) ix out ⟨hix, hdrop⟩
      refine ⟨ix', h1, h2, ?_⟩
      rw [helper, hn, Res.ok_bind, forUp, e, Res.ok_bind, List.reverse_append, List.reverse_singleton,
        List.singleton_append, layout_cons _ _ _ _ _ (by
          intro h; rw [List.reverse_eq_nil_iff] at h; simp [h] at hpl), List.append_assoc]

/-- Printing an image with any number of dimensions writes every pixel once, in the order of storage, in the
layout of the specification. -/
theorem C173_layout (im : Image α) (sz : List Nat) (f : List Nat → α) (s : im.ShowsN sz f) (el : α → Str)
    (sep : Str) : print im el sep = .ok (layout el sep f sz.reverse []) := by
  unfold print
  rw [Image.dim, s.size]
  split_ifs with h
  · rw [List.length_eq_zero_iff] at h
    subst h
    rfl
  · obtain ⟨ix, -, -, e⟩ := helper_eq s el sep sz (sz.length - 1) [] [] (by simp) (by omega) .nil
      (List.replicate sz.length 0) [] (by simp) (by simp; omega)
    rw [e, Res.ok_bind, List.nil_append]

/-- A planar image: one line for each row, and an empty line. -/
theorem C173_planar (im : Image α) (w h : Nat) (f : Nat → Nat → α) (s : im.Shows w h f) (el : α → Str)
    (sep : Str) :
    print im el sep = .ok (((List.range h).flatMap fun y =>
      ((List.range w).flatMap fun x => el (f x y) ++ sep) ++ ['\n']) ++ ['\n']) ∧
    insert im el = print im el "\t".toList := by
  refine ⟨?_, rfl⟩
  have := C173_layout im _ _ s.toN el sep
  rw [this]
  rfl

example := C173_planar _ 3 2 _ (picture_shows 3 2 fun x y => 10 * x + y) toStr ", ".toList

/-! ## The text determines the image -/

theorem split_unique {c : Char} {a b x y : Str} (ha : c ∉ a) (hb : c ∉ b) (h : a ++ c :: x = b ++ c :: y) :
    a = b ∧ x = y := by
  induction a generalizing b with
  | nil =>
    cases b with
    | nil => simpa using h
    | cons d b =>
      simp only [List.nil_append, List.cons_append, List.cons.injEq] at h
      exact absurd (by rw [h.1]; simp) hb
  | cons e a ih =>
    cases b with
    | nil =>
      simp only [List.nil_append, List.cons_append, List.cons.injEq] at h
      exact absurd (by rw [← h.1]; simp) ha
    | cons d b =>
      simp only [List.cons_append, List.cons.injEq] at h
      obtain ⟨h1, h2⟩ := ih (fun hh => ha (by simp [hh])) (fun hh => hb (by simp [hh])) h.2
      exact ⟨by rw [h.1, h1], h2⟩

theorem row_unique {el : α → Str} {sep : Str} (hl : Legible el sep) {r r' : Str} : ∀ L L' : List α,
    L.flatMap (fun a => el a ++ sep) ++ '\n' :: r = L'.flatMap (fun a => el a ++ sep) ++ '\n' :: r' →
    L = L' ∧ r = r' := by
  obtain ⟨hinj, hnl, c, cs, rfl, hsep, hc⟩ := hl
  have head : ∀ a t, ∃ ch t', (el a ++ (c :: cs)) ++ t = ch :: t' ∧ ch ≠ '\n' := by
    intro a t
    cases h : el a with
    | nil => exact ⟨c, cs ++ t, by simp, fun h' => hsep (by simp [h'])⟩
    | cons d l => exact ⟨d, l ++ (c :: cs) ++ t, by simp, fun h' => hnl a (by simp [h, h'])⟩
  intro L
  induction L with
  | nil =>
    intro L' h
    cases L' with
    | nil => exact ⟨rfl, by simpa using h⟩
    | cons a L' =>
      rw [List.flatMap_cons, List.append_assoc] at h
      obtain ⟨ch, t', e, hne⟩ := head a (L'.flatMap (fun a => el a ++ (c :: cs)) ++ '\n' :: r')
      rw [e] at h
      simp only [List.flatMap_nil, List.nil_append, List.cons.injEq] at h
      exact absurd h.1.symm hne
  | cons a L ih =>
    intro L' h
    cases L' with
    | nil =>
      rw [List.flatMap_cons, List.append_assoc] at h
      obtain ⟨ch, t', e, hne⟩ := head a (L.flatMap (fun a => el a ++ (c :: cs)) ++ '\n' :: r)
      rw [e] at h
      simp only [List.flatMap_nil, List.nil_append, List.cons.injEq] at h
      exact absurd h.1 hne
    | cons b L' =>
      simp only [List.flatMap_cons, List.append_assoc, List.cons_append] at h
      obtain ⟨h1, h2⟩ := split_unique (hc a) (hc b) h
      have h3 := List.append_cancel_left h2
      obtain ⟨h4, h5⟩ := ih L' (by simpa using h3)
      exact ⟨by rw [hinj a b h1, h4], h5⟩

theorem layout_head {el : α → Str} {sep : Str} (hl : Legible el sep) (f : List Nat → α) :
    ∀ (szr : List Nat), szr ≠ [] → (∀ n ∈ szr, 0 < n) → ∀ outer, ∃ ch t, layout el sep f szr outer = ch :: t ∧
      ch ≠ '\n' := by
  intro szr
  induction szr with
  | nil => intro h; exact absurd rfl h
  | cons n l ih =>
    intro _ hp outer
    obtain ⟨k, rfl⟩ : ∃ k, n = k + 1 := ⟨n - 1, by have := hp n (by simp); omega⟩
    by_cases hne : l = []
    · subst hne
      obtain ⟨hinj, hnl, c, cs, rfl, hsep, hc⟩ := hl
      rw [layout, List.range_succ_eq_map, List.flatMap_cons]
      cases h : el (f (0 :: outer)) with
      | nil => exact ⟨c, _, by simp only [List.nil_append, List.cons_append]; rfl, fun h' => hsep (by simp [h'])⟩
      | cons d t => exact ⟨d, _, by simp only [List.cons_append]; rfl, fun h' => hnl (f (0 :: outer)) (by simp [h, h'])⟩
    · obtain ⟨ch, t, e, hch⟩ := ih hne (fun m hm => hp m (by simp [hm])) (0 :: outer)
      rw [layout_cons _ _ _ _ _ hne, List.range_succ_eq_map, List.flatMap_cons, e]
      exact ⟨ch, _, by simp only [List.cons_append]; rfl, hch⟩

theorem layout_unique {el : α → Str} {sep : Str} (hl : Legible el sep) (f f' : List Nat → α) :
    ∀ (szr szr' : List Nat), szr ≠ [] → szr.length = szr'.length → (∀ n ∈ szr, 0 < n) → (∀ n ∈ szr', 0 < n) →
    ∀ (outer outer' : List Nat) (r r' : Str),
    layout el sep f szr outer ++ '\n' :: r = layout el sep f' szr' outer' ++ '\n' :: r' →
    szr = szr' ∧ r = r' ∧ ∀ idx, InBounds szr.reverse idx → f (idx ++ outer) = f' (idx ++ outer') := by
  intro szr
  induction szr with
  | nil => intro _ h; exact absurd rfl h
  | cons n l ih =>
    intro szr' _ hlen hp hp' outer outer' r r' h
    cases szr' with
    | nil => simp at hlen
    | cons n' l' =>
    by_cases hne : l = []
    · subst hne
      have hne' : l' = [] := by simpa using hlen.symm
      subst hne'
      have key := row_unique hl ((List.range n).map fun i => f (i :: outer))
        ((List.range n').map fun i => f' (i :: outer')) (r := r) (r' := r') (by
          simpa only [List.flatMap_map, layout] using h)
      have hn : n = n' := by simpa using congrArg List.length key.1
      subst hn
      refine ⟨rfl, key.2, fun idx hi => ?_⟩
      cases hi with
      | cons hx ht =>
        cases ht
        rename_i i
        exact List.map_inj_left.1 key.1 i (List.mem_range.2 hx)
    · have hne' : l' ≠ [] := by
        intro hh; subst hh
        exact hne (by simpa using hlen)
      have hl2 : l.length = l'.length := by simpa using hlen
      have hq : ∀ m ∈ l, 0 < m := fun m hm => hp m (by simp [hm])
      have hq' : ∀ m ∈ l', 0 < m := fun m hm => hp' m (by simp [hm])
      rw [layout_cons _ _ _ _ _ hne, layout_cons _ _ _ _ _ hne'] at h
      have gen : ∀ (I J : List Nat) (r r' : Str),
          (I.flatMap fun i => layout el sep f l (i :: outer) ++ ['\n']) ++ '\n' :: r =
          (J.flatMap fun i => layout el sep f' l' (i :: outer') ++ ['\n']) ++ '\n' :: r' →
          r = r' ∧ (I ≠ [] → l = l') ∧ List.Forall₂ (fun i j => ∀ idx, InBounds l.reverse idx →
            f (idx ++ (i :: outer)) = f' (idx ++ (j :: outer'))) I J := by
        intro I
        induction I with
        | nil =>
          intro J r r' h
          cases J with
          | nil => exact ⟨by simpa using h, fun hh => absurd rfl hh, .nil⟩
          | cons j J =>
            obtain ⟨ch, t, e, hch⟩ := layout_head hl f' l' hne' hq' (j :: outer')
            simp only [List.flatMap_nil, List.nil_append, List.flatMap_cons, e, List.cons_append,
              List.cons.injEq] at h
            exact absurd h.1.symm hch
        | cons i I ihI =>
          intro J r r' h
          cases J with
          | nil =>
            obtain ⟨ch, t, e, hch⟩ := layout_head hl f l hne hq (i :: outer)
            simp only [List.flatMap_nil, List.nil_append, List.flatMap_cons, e, List.cons_append,
              List.cons.injEq] at h
            exact absurd h.1 hch
          | cons j J =>
            simp only [List.flatMap_cons, List.append_assoc, List.singleton_append] at h
            obtain ⟨a1, a2, a3⟩ := ih l' hne hl2 hq hq' (i :: outer) (j :: outer') _ _ h
            obtain ⟨b1, -, b3⟩ := ihI J r r' a2
            exact ⟨b1, fun _ => a1, .cons a3 b3⟩
      obtain ⟨g1, g2, g3⟩ := gen (List.range n) (List.range n') ('\n' :: r) ('\n' :: r') (by
        simpa only [List.append_assoc, List.singleton_append] using h)
      have hn : n = n' := by simpa using g3.length_eq
      subst hn
      have hll := g2 (by
        have := hp n (by simp)
        intro hh
        rw [List.range_eq_nil] at hh
        omega)
      subst hll
      refine ⟨rfl, by simpa using g1, fun idx hi => ?_⟩
      rw [List.reverse_cons] at hi
      obtain ⟨a, b, rfl, h1, h2⟩ : ∃ a b, idx = a ++ b ∧ InBounds l.reverse a ∧ InBounds [n] b := by
        have := List.forall₂_take_append idx l.reverse [n] hi
        exact ⟨_, _, (List.take_append_drop l.reverse.length idx).symm, this,
          List.forall₂_drop_append idx l.reverse [n] hi⟩
      cases h2 with
      | cons hx ht =>
        cases ht
        rename_i i
        rw [List.forall₂_iff_get] at g3
        have := g3.2 i (by simpa using hx) (by simpa using hx) a h1
        simpa using this

theorem exists_showsN {im : Image α} (wf : im.WF) (hp : ∀ n ∈ im.size, 0 < n) :
    ∃ f, im.ShowsN im.size f ∧ ∀ idx, (h : InBounds im.size idx) →
      f idx = im.data[rowMajor im.size idx]'(wf.rowMajor_lt h) := by
  have h0 : 0 < im.data.length := by
    rw [wf.len]
    have : ∀ l : List Nat, (∀ n ∈ l, 0 < n) → 0 < l.prod := by
      intro l
      induction l with
      | nil => intro _; simp
      | cons a l ih =>
        intro h
        rw [List.prod_cons]
        exact Nat.mul_pos (h a (by simp)) (ih fun n hn => h n (by simp [hn]))
    exact this _ hp
  let f : List Nat → α := fun idx => im.data[rowMajor im.size idx]?.getD im.data[0]
  have hf : ∀ idx, (h : InBounds im.size idx) → f idx = im.data[rowMajor im.size idx]'(wf.rowMajor_lt h) := by
    intro idx h
    simp [f, List.getElem?_eq_getElem (wf.rowMajor_lt h)]
  exact ⟨f, ⟨wf, rfl, fun idx h => by rw [wf.at' h, hf idx h]⟩, hf⟩

/-- Two images with the same number of dimensions, with pixels, that print the same text are equal: no
information is lost, when elements can be told apart from each other and from the separator. -/
theorem C173_lossless (el : α → Str) (sep : Str) (hl : Legible el sep) (im im' : Image α) (wf : im.WF)
    (wf' : im'.WF) (h0 : im.size ≠ []) (hd : im.size.length = im'.size.length) (hp : ∀ n ∈ im.size, 0 < n)
    (hp' : ∀ n ∈ im'.size, 0 < n) (h : print im el sep = print im' el sep) : im = im' := by
  obtain ⟨f, s, hf⟩ := exists_showsN wf hp
  obtain ⟨f', s', hf'⟩ := exists_showsN wf' hp'
  rw [C173_layout im _ f s, C173_layout im' _ f' s'] at h
  injection h with h
  obtain ⟨h1, -, h3⟩ := layout_unique hl f f' im.size.reverse im'.size.reverse (by simpa using h0) (by simpa using hd)
    (by simpa using hp) (by simpa using hp') [] [] [] [] (by rw [h])
  have hsz : im.size = im'.size := List.reverse_inj.1 h1
  have hdata : im.data = im'.data := by
    refine List.ext_getElem (by rw [wf.len, wf'.len, hsz]) fun n hn hn' => ?_
    obtain ⟨idx, hb, e⟩ := rowMajor_surj im.size n (by rw [← wf.len]; exact hn)
    have hb' : InBounds im'.size idx := hsz ▸ hb
    have := h3 idx (by simpa using hb)
    simp only [List.append_nil] at this
    rw [hf idx hb, hf' idx hb'] at this
    have e' : rowMajor im'.size idx = n := by rw [← hsz, e]
    simpa only [e, e'] using this
  cases im; cases im'
  simp_all

/-- Whole numbers and a tab. -/
theorem legible_nat : Legible toStr "\t".toList := by
  refine ⟨fun a b h => toStr_inj h, fun a h => ?_, '\t', [], rfl, by decide, fun a h => ?_⟩
  · exact absurd (isDigit_toStr h) (by decide)
  · exact absurd (isDigit_toStr h) (by decide)

example : print (⟨[2, 2, 2], [1, 2, 3, 4, 5, 6, 7, 80]⟩ : Image Nat) toStr "\t".toList =
    .ok "1\t2\t\n3\t4\t\n\n\n5\t6\t\n7\t80\t\n\n\n\n".toList := by decide +kernel

example : (⟨[2, 2, 2], [1, 2, 3, 4, 5, 6, 7, 80]⟩ : Image Nat).WF := ⟨rfl, by decide, by decide⟩

/-! ## C174: nested containers -/

theorem prefix_head {k : Nat} {l : Str} (c : Char) (hc : c ≠ ' ') (t : Str) (hl : l = List.replicate k ' ' ++ c :: t) :
    ¬ List.replicate (k + 1) ' ' <+: l := by
  subst hl
  intro h
  induction k with
  | zero => simp at h; exact hc h.symm
  | succ k ih =>
    rw [List.replicate_succ, List.replicate_succ, List.cons_append, List.cons_prefix_cons] at h
    exact ih (by rw [List.replicate_succ]; exact h.2)

theorem replicate_prefix_mono {k m : Nat} (hkm : k ≤ m) {l : Str} (h : List.replicate m ' ' <+: l) :
    List.replicate k ' ' <+: l := by
  obtain ⟨j, rfl⟩ := Nat.exists_eq_add_of_le hkm
  rw [List.replicate_add] at h
  exact (List.prefix_append _ _).trans h

theorem recPrint_starts (el : α → Str) (n level : Nat) (v : Rec.Nest α n) (r : Str) :
    List.replicate level ' ' <+: recPrint el n level v ++ r := by
  cases n <;> simp only [recPrint, List.append_assoc] <;> exact List.prefix_append _ _

theorem recPrint_unique {el : α → Str} (hinj : ∀ a b, el a = el b → a = b) (hnl : ∀ a, '\n' ∉ el a) :
    ∀ (n level : Nat) (v v' : Rec.Nest α n) (r r' : Str),
      (n ≠ 0 → ¬ List.replicate (level + 1) ' ' <+: r) → (n ≠ 0 → ¬ List.replicate (level + 1) ' ' <+: r') →
      recPrint el n level v ++ r = recPrint el n level v' ++ r' → v = v' ∧ r = r' := by
  intro n
  induction n with
  | zero =>
    intro level v v' r r' _ _ h
    simp only [recPrint, List.append_assoc] at h
    have h2 := List.append_cancel_left h
    obtain ⟨a, b⟩ := split_unique (hnl v) (hnl v') h2
    exact ⟨hinj _ _ a, b⟩
  | succ n ih =>
    intro level v v' r r' hr hr' h
    have hr := hr (by omega)
    have hr' := hr' (by omega)
    simp only [recPrint, List.append_assoc] at h
    have h2 := List.append_cancel_left (List.append_cancel_left (List.append_cancel_left
      (List.append_cancel_left h)))
    clear h
    have tail : ∀ (l : List (Rec.Nest α n)) (q : Str), ¬ List.replicate (level + 1) ' ' <+: q → n ≠ 0 →
        ¬ List.replicate (level + 1 + 1) ' ' <+: List.flatMap (fun e => recPrint el n (level + 1) e) l ++ q := by
      intro l q hq hn
      cases l with
      | nil => exact fun h => hq (replicate_prefix_mono (by omega) h)
      | cons e l =>
        obtain ⟨m, rfl⟩ : ∃ m, n = m + 1 := ⟨n - 1, by omega⟩
        rw [List.flatMap_cons, recPrint]
        simp only [List.append_assoc]
        exact prefix_head 'L' (by decide) _ rfl
    change List (Rec.Nest α n) at v v'
    suffices ∀ v v' : List (Rec.Nest α n),
        List.flatMap (fun e => recPrint el n (level + 1) e) v ++ r =
        List.flatMap (fun e => recPrint el n (level + 1) e) v' ++ r' → v = v' ∧ r = r' from this v v' h2
    intro v
    induction v with
    | nil =>
      intro v' h
      cases v' with
      | nil => exact ⟨rfl, h⟩
      | cons e v' =>
        rw [List.flatMap_cons, List.append_assoc] at h
        exact absurd (by
          have := recPrint_starts el n (level + 1) e (List.flatMap (fun e => recPrint el n (level + 1) e) v' ++ r')
          rw [← h] at this; exact this) hr
    | cons e v ihv =>
      intro v' h
      cases v' with
      | nil =>
        rw [List.flatMap_cons, List.append_assoc] at h
        exact absurd (by
          have := recPrint_starts el n (level + 1) e (List.flatMap (fun e => recPrint el n (level + 1) e) v ++ r)
          rw [h] at this; exact this) hr'
      | cons e' v' =>
        rw [List.flatMap_cons, List.flatMap_cons, List.append_assoc, List.append_assoc] at h
        obtain ⟨a, b⟩ := ih (level + 1) e e' _ _ (tail v r hr) (tail v' r' hr') h
        obtain ⟨c, d⟩ := ihv v' b
        exact ⟨by rw [a, c], d⟩

/-- The text written for a nested container determines it, whatever the number of levels, when the texts of
elements differ and have no ends of lines. Containers of the same type have the same number of levels. -/
theorem C174_lossless (el : α → Str) (hinj : ∀ a b, el a = el b → a = b) (hnl : ∀ a, '\n' ∉ el a) (n level : Nat)
    (v v' : Rec.Nest α n) (h : recPrint el n level v = recPrint el n level v') : v = v' :=
  (recPrint_unique hinj hnl n level v v' [] [] (by simp) (by simp) (by rw [h])).1

/-- Every element is written once, from left to right, on a line of its own indented by its depth; every other
line announces a level. -/
theorem C174_lines (el : α → Str) (n level : Nat) (v : Rec.Nest α n) :
    ∃ lines : List (Option α × Str),
      recPrint el n level v = lines.flatMap (fun p => p.2 ++ ['\n']) ∧
      lines.filterMap Prod.fst = Rec.leaves n v ∧
      ∀ p ∈ lines, match p.1 with
        | some a => p.2 = List.replicate (level + n) ' ' ++ el a
        | none => ∃ k, level ≤ k ∧ k < level + n ∧
            p.2 = List.replicate k ' ' ++ "Level ".toList ++ toStr k ++ ":".toList := by
  induction n generalizing level with
  | zero =>
    exact ⟨[(some v, List.replicate level ' ' ++ el v)], by simp [recPrint], rfl, by simp⟩
  | succ n ih =>
    change List (Rec.Nest α n) at v
    choose f h1 h2 h3 using ih (level + 1)
    refine ⟨(none, List.replicate level ' ' ++ "Level ".toList ++ toStr level ++ ":".toList) :: v.flatMap f, ?_, ?_, ?_⟩
    · rw [recPrint, List.flatMap_cons, List.flatMap_assoc]
      simp only [h1, List.append_assoc]
      rfl
    · rw [List.filterMap_cons, List.filterMap_flatMap]
      simp only [h2]
      rfl
    · intro p hp
      rcases List.mem_cons.1 hp with rfl | hp
      · exact ⟨level, le_refl _, by omega, rfl⟩
      · obtain ⟨e, -, he⟩ := List.mem_flatMap.1 hp
        have := h3 e p he
        cases hq : p.1 with
        | none =>
          rw [hq] at this
          obtain ⟨k, a, b, c⟩ := this
          exact ⟨k, by omega, by omega, c⟩
        | some a =>
          rw [hq] at this
          simp only at this ⊢
          rw [this]
          congr 2
          omega

example : recPrint toStr 2 0 ([[1, 20], []] : List (List Nat)) =
    "Level 0:\n Level 1:\n  1\n  20\n Level 1:\n".toList := by decide +kernel

example (v v' : Rec.Nest Bool 3) := C174_lossless (fun b : Bool => if b then ['1'] else ['0']) (by decide) (by decide) 3 0 v v'

end TinyDIP.Props
