import Verif.Lemmas.Cut

/-!
# Reading a cut CSV file (lemmas)
-/

namespace TinyDIP.Text

open TinyDIP TinyDIP.Cli Image

variable {α : Type}

theorem csvCells_total (parse : Str → Res α) (pv : Str → α) (hp : ∀ s, parse s = .ok (pv s)) {w h y : Nat}
    (hy : y < h) (cs : List Str) (x : Nat) (im : Image α) (f : Nat → Nat → α) (s : im.Shows w h f) :
    ∃ im', csvCells parse w y cs x im = .ok im' ∧ im'.Shows w h fun a b =>
      if b = y ∧ x ≤ a ∧ a < x + cs.length then pv (cs.getD (a - x) []) else f a b := by
  induction cs generalizing x im f with
  | nil =>
    refine ⟨im, rfl, s.congr fun a b _ _ => ?_⟩
    rw [if_neg (by rintro ⟨_, h1, h2⟩; simp at h2; omega)]
  | cons c cs ih =>
    rw [csvCells]
    by_cases hx : x < w
    · rw [if_pos hx, hp, Res.ok_bind]
      obtain ⟨im1, e1, s1⟩ := s.set2u hx hy (pv c)
      rw [e1, Res.ok_bind]
      obtain ⟨im2, e2, s2⟩ := ih (x + 1) im1 _ s1
      refine ⟨im2, e2, s2.congr fun a b _ _ => ?_⟩
      unfold updPx
      simp only [List.length_cons]
      by_cases h1 : b = y ∧ x ≤ a ∧ a < x + (cs.length + 1)
      · rw [if_pos h1]
        by_cases h2 : a = x
        · subst h2
          rw [if_neg (by omega), if_pos ⟨rfl, h1.1⟩, Nat.sub_self]
          rfl
        · rw [if_pos (by omega)]
          obtain ⟨d, rfl⟩ : ∃ d, a = x + 1 + d := ⟨a - (x + 1), by omega⟩
          rw [show x + 1 + d - (x + 1) = d by omega, show x + 1 + d - x = d + 1 by omega]
          rfl
      · rw [if_neg h1, if_neg (by omega), if_neg (by omega)]
    · rw [if_neg hx]
      refine ⟨im, rfl, s.congr fun a b ha _ => ?_⟩
      rw [if_neg (by omega)]

/-- Any text with at least one line that is not empty, the cells of any number in each line. -/
theorem csvRead_total (parse : Str → Res α) (pv : Str → α) (hp : ∀ s, parse s = .ok (pv s)) (zero : α)
    (file : Str) (first : Str) (tl : List Str) (hl : (getlines '\n' file).filter (· ≠ []) = first :: tl) (w h : Nat)
    (hw : w = (getlines ',' first).length) (hh : h = (first :: tl).length)
    (hw' : w < 2 ^ 64) (hh' : h < 2 ^ 64) (hwh : w * h < 2 ^ 64) {sched : List Nat → List Nat} (hs : Fair sched) :
    ∃ out, csvRead sched parse zero (some file) = .ok out ∧ out.Shows w h fun x y =>
      match (getlines ',' ((first :: tl).getD y []))[x]? with
      | some c => pv c
      | none => zero := by
  simp only [csvRead, hl, ← hw, ← hh]
  let T : Nat → Nat → α := fun x y =>
    match (getlines ',' ((first :: tl).getD y []))[x]? with
    | some c => pv c
    | none => zero
  have key : ∀ (ys : List Nat) (done : List Nat) (im : Image α), (∀ y ∈ ys, y < h) →
      im.Shows w h (fun a b => if b ∈ done then T a b else zero) →
      ∃ out, loop (fun im y => do
        let line ← vget (first :: tl) y
        csvCells parse w y (getlines ',' line) 0 im) ys im = .ok out ∧
        out.Shows w h (fun a b => if b ∈ ys ∨ b ∈ done then T a b else zero) := by
    intro ys
    induction ys with
    | nil =>
      intro done im _ s
      exact ⟨im, rfl, s.congr fun a b _ _ => by simp⟩
    | cons y ys ih =>
      intro done im hys s
      have hy : y < h := hys y (by simp)
      have hv : vget (first :: tl) y = .ok ((first :: tl).getD y []) := by
        have : y < (first :: tl).length := hh ▸ hy
        unfold vget
        rw [List.getElem?_eq_getElem this, List.getD_eq_getElem?_getD, List.getElem?_eq_getElem this]
        rfl
      obtain ⟨im1, e1, s1⟩ := csvCells_total parse pv hp hy (getlines ',' ((first :: tl).getD y [])) 0 im _ s
      obtain ⟨out, e2, s2⟩ := ih (y :: done) im1 (fun z hz => hys z (by simp [hz])) (s1.congr fun a b _ _ => by
        by_cases hb : b = y
        · subst hb
          simp only [true_and, Nat.zero_le, Nat.zero_add, Nat.sub_zero, List.mem_cons, true_or, if_true, T]
          by_cases ha : a < (getlines ',' ((first :: tl).getD b [])).length
          · rw [if_pos ha, List.getElem?_eq_getElem ha, List.getD_eq_getElem?_getD, List.getElem?_eq_getElem ha]
            rfl
          · rw [if_neg ha, List.getElem?_eq_none (by omega)]
            simp
        · simp [hb])
      refine ⟨out, ?_, s2.congr fun a b _ _ => ?_⟩
      · simp only [loop, hv, Res.ok_bind, e1]
        exact e2
      · simp only [List.mem_cons]
        congr 1
        rw [eq_iff_iff]
        tauto
  obtain ⟨out, e, so⟩ := key (sched (List.range h)) [] _ (fun y hy => by simpa using (hs _).mem_iff.1 hy)
    ((ofSizes_shows zero hw' hh' hwh).congr fun a b _ _ => by simp)
  refine ⟨out, e, so.congr fun a b _ hb => ?_⟩
  rw [if_pos (Or.inl ((hs _).mem_iff.2 (by simpa using hb)))]

/-- What is left of pieces with a separator after each. -/
theorem take_lines {sep : Char} (P : List Str) (h : ∀ p ∈ P, sep ∉ p) (k : Nat) :
    ∃ q, (P.flatMap fun r => r ++ [sep]).take k =
        ((P.take (((P.flatMap fun r => r ++ [sep]).take k).count sep)).flatMap fun r => r ++ [sep]) ++ q ∧
      ((P.flatMap fun r => r ++ [sep]).take k).count sep ≤ P.length ∧ sep ∉ q ∧
      q <+: P.getD (((P.flatMap fun r => r ++ [sep]).take k).count sep) [] := by
  induction P generalizing k with
  | nil => exact ⟨[], by simp, by simp, by simp, by simp⟩
  | cons p P ih =>
    have hp : sep ∉ p := h p (by simp)
    rw [List.flatMap_cons]
    by_cases hk : k ≤ p.length
    · have e : (p ++ [sep] ++ P.flatMap fun r => r ++ [sep]).take k = p.take k := by
        rw [List.append_assoc, List.take_append_of_le_length hk]
      have hn : sep ∉ p.take k := fun hm => hp (List.mem_of_mem_take hm)
      rw [e, List.count_eq_zero.2 hn]
      exact ⟨p.take k, by simp, by simp, hn, by simpa using List.take_prefix _ _⟩
    · obtain ⟨j, rfl⟩ : ∃ j, k = (p ++ [sep]).length + j := ⟨k - (p.length + 1), by simp; omega⟩
      obtain ⟨q, e1, e2, e3, e4⟩ := ih (fun r hr => h r (by simp [hr])) j
      have e : (p ++ [sep] ++ P.flatMap fun r => r ++ [sep]).take ((p ++ [sep]).length + j) =
          p ++ [sep] ++ (P.flatMap fun r => r ++ [sep]).take j := by
        rw [List.take_length_add_append]
      have hc : (p ++ [sep] ++ (P.flatMap fun r => r ++ [sep]).take j).count sep =
          ((P.flatMap fun r => r ++ [sep]).take j).count sep + 1 := by
        rw [List.count_append, List.count_append, List.count_eq_zero.2 hp]
        simp
        omega
      rw [e, hc]
      refine ⟨q, ?_, by simpa using e2, e3, by simpa using e4⟩
      rw [List.take_succ_cons, List.flatMap_cons, List.append_assoc (p ++ [sep]), ← e1]

theorem getlines_nil (sep : Char) : getlines sep [] = [] := by simp [getlines]

theorem getlines_cut {sep : Char} (P : List Str) (h : ∀ p ∈ P, sep ∉ p) (q : Str) (hq : sep ∉ q) :
    getlines sep ((P.flatMap fun r => r ++ [sep]) ++ q) = P ++ (if q = [] then [] else [q]) := by
  rw [getlines_lines P h]
  split
  · next e => rw [e, getlines_nil]
  · next e => rw [getlines_single q hq e]

/-- The cells of a beginning of a row. -/
theorem cells_cut {w : Nat} (hw : 0 < w) (c : Nat → Str) (hc : ∀ x, x < w → c x ≠ [] ∧ ',' ∉ c x) (q : Str)
    (hq : q <+: rowText w c) :
    ∃ n t, n ≤ w ∧ getlines ',' q = (List.range n).map c ++ t ∧ t.length ≤ 1 ∧ n + t.length ≤ w ∧
      (q ≠ [] → 0 < n + t.length) := by
  obtain ⟨n, rfl⟩ : ∃ n, w = n + 1 := ⟨w - 1, by omega⟩
  have hP : ∀ p ∈ (List.range (n + 1)).map c, ',' ∉ p := by
    intro p hp
    obtain ⟨x, hx, rfl⟩ := List.mem_map.1 hp
    exact (hc x (by simpa using hx)).2
  have hfull : (((List.range (n + 1)).map c).flatMap fun r => r ++ [',']) = rowText (n + 1) c ++ [','] := by
    rw [rowText_succ, List.range_succ, List.map_append, List.flatMap_append]
    simp
  have hq' : q = (((List.range (n + 1)).map c).flatMap fun r => r ++ [',']).take q.length := by
    rw [hfull, List.take_append_of_le_length hq.length_le]
    exact List.prefix_iff_eq_take.1 hq
  obtain ⟨t, e1, e2, e3, e4⟩ := take_lines _ hP q.length
  rw [← hq'] at e1 e2
  have e2' : q.count ',' ≤ n + 1 := by simpa using e2
  have hT : (((List.range (n + 1)).map c).take (q.count ',')) = (List.range (q.count ',')).map c := by
    rw [← List.map_take, List.take_range, Nat.min_eq_left e2']
  rw [hT] at e1
  have hlt : q.count ',' < n + 1 := by
    by_contra hge
    have he : q.count ',' = n + 1 := by omega
    have h1 := congrArg List.length e1
    rw [he, hfull, List.length_append, List.length_append] at h1
    have h2 := hq.length_le
    simp at h1
    omega
  refine ⟨q.count ',', if t = [] then [] else [t], e2', ?_, ?_, ?_, ?_⟩
  · conv_lhs => rw [e1]
    exact getlines_cut _ (fun p hp => hP p (by
      obtain ⟨x, hx, rfl⟩ := List.mem_map.1 hp
      exact List.mem_map.2 ⟨x, by simp at hx ⊢; omega, rfl⟩)) t e3
  · split <;> simp
  · split <;> simp <;> omega
  · intro hne
    by_cases ht : t = []
    · rw [if_pos ht]
      rcases Nat.eq_zero_or_pos (q.count ',') with h0 | h0
      · rw [h0, ht] at e1
        exact absurd e1 (by simpa using hne)
      · simpa using h0
    · rw [if_neg ht]; simp

theorem csv_cut (parse : Str → Res α) (pv : Str → α) (hp : ∀ s, parse s = .ok (pv s)) (zero : α) {w h : Nat}
    (hw : 0 < w) (hh : 0 < h) (hw' : w < 2 ^ 64) (hh' : h < 2 ^ 64) (hwh : w * h < 2 ^ 64) (c : Nat → Nat → Str)
    (hc : ∀ x y, x < w → y < h → c x y ≠ [] ∧ ',' ∉ c x y ∧ '\n' ∉ c x y) (file : Str)
    (hf : file = ((List.range h).map fun y => rowText w fun x => c x y).flatMap fun r => r ++ ['\n'])
    {sched : List Nat → List Nat} (hs : Fair sched) (k r : Nat) (hr : r = (file.take k).count '\n') :
    (k = 0 → csvRead sched parse zero (some (file.take k)) = .ok Image.default) ∧
    (0 < k → r = 0 → ∃ out g w', csvRead sched parse zero (some (file.take k)) = .ok out ∧ out.Shows w' 1 g ∧
      0 < w' ∧ w' ≤ w ∧ ∀ x, x + 1 < w' → g x 0 = pv (c x 0)) ∧
    (0 < r → ∃ out g h' n, csvRead sched parse zero (some (file.take k)) = .ok out ∧ out.Shows w h' g ∧
      h' ≤ h ∧ (h' = r ∨ h' = r + 1) ∧ (∀ x y, x < w → y < r → g x y = pv (c x y)) ∧
      (h' = r + 1 → ∀ x, x < w → (x < n → g x r = pv (c x r)) ∧ (n < x → g x r = zero))) := by
  have hP : ∀ p ∈ (List.range h).map fun y => rowText w fun x => c x y, '\n' ∉ p := by
    intro p hp
    obtain ⟨y, hy, rfl⟩ := List.mem_map.1 hp
    exact nl_rowText _ fun x hx => (hc x y hx (by simpa using hy)).2.2
  obtain ⟨q, e1, e2, e3, e4⟩ := take_lines _ hP k
  rw [← hf, ← hr] at e1 e2 e4
  have e2' : r ≤ h := by simpa using e2
  rw [← List.map_take, List.take_range, Nat.min_eq_left e2'] at e1
  have hrow : ∀ y, y < h → rowText w (fun x => c x y) ≠ [] := fun y hy =>
    rowText_ne_nil hw _ fun x hx => (hc x y hx hy).1
  have hl : (getlines '\n' (file.take k)).filter (· ≠ []) =
      ((List.range r).map fun y => rowText w fun x => c x y) ++ (if q = [] then [] else [q]) := by
    rw [e1, getlines_cut _ (fun p hp => hP p (by
      obtain ⟨y, hy, rfl⟩ := List.mem_map.1 hp
      exact List.mem_map.2 ⟨y, by simp at hy ⊢; omega, rfl⟩)) q e3, List.filter_eq_self]
    intro p hp
    rcases List.mem_append.1 hp with hp | hp
    · obtain ⟨y, hy, rfl⟩ := List.mem_map.1 hp
      simpa using hrow y (by simp at hy; omega)
    · split at hp
      · simp at hp
      · next hq =>
        rw [List.mem_singleton] at hp
        simpa [hp] using hq
  have hgl : ∀ y, y < h → getlines ',' (rowText w fun x => c x y) = (List.range w).map fun x => c x y :=
    fun y hy => getlines_rowText hw _ fun x hx => ⟨(hc x y hx hy).1, (hc x y hx hy).2.1⟩
  have hlast : q ≠ [] → r < h ∧ q <+: rowText w fun x => c x r := by
    intro hq
    have hrh : r < h := by
      by_contra hge
      rw [List.getD_eq_getElem?_getD, List.getElem?_eq_none (by simp; omega)] at e4
      exact hq (by simpa using e4)
    rw [List.getD_eq_getElem?_getD, List.getElem?_eq_getElem (by simpa using hrh)] at e4
    exact ⟨hrh, by simpa using e4⟩
  refine ⟨?_, ?_, ?_⟩
  · rintro rfl
    simp [csvRead, getlines_nil]
  · intro hk h0
    subst h0
    have hq : q ≠ [] := by
      intro hq
      rw [hq] at e1
      have := congrArg List.length e1
      simp at this
      have h1 : file = [] := by
        rcases this with h | h
        · omega
        · exact h
      rw [hf, List.flatMap_eq_nil_iff] at h1
      have := h1 (rowText w fun x => c x 0) (List.mem_map.2 ⟨0, by simpa using hh, rfl⟩)
      simp at this
    obtain ⟨-, hpre⟩ := hlast hq
    obtain ⟨n, t, hn, ht, ht1, hnt, hpos⟩ := cells_cut hw (fun x => c x 0)
      (fun x hx => ⟨(hc x 0 hx hh).1, (hc x 0 hx hh).2.1⟩) q hpre
    have hl' : (getlines '\n' (file.take k)).filter (· ≠ []) = q :: [] := by
      rw [hl, if_neg hq]; simp
    obtain ⟨out, e, so⟩ := csvRead_total parse pv hp zero (file.take k) q [] hl' (n + t.length) 1
      (by rw [ht]; simp) rfl (by omega) (by omega) (by omega) hs
    refine ⟨out, _, _, e, so, hpos hq, hnt, fun x hx => ?_⟩
    have hx' : x < n := by omega
    simp only [List.getD_cons_zero, ht]
    rw [List.getElem?_append_left (by simpa using hx'), List.getElem?_eq_getElem (by simpa using hx')]
    simp
  · intro hr0
    obtain ⟨m, rfl⟩ : ∃ m, r = m + 1 := ⟨r - 1, by omega⟩
    have hl0 := hl
    rw [List.range_succ_eq_map, List.map_cons, List.cons_append] at hl
    have hlen : (((List.range (m + 1)).map fun y => rowText w fun x => c x y) ++ (if q = [] then [] else [q])).length =
        m + 1 + (if q = [] then 0 else 1) := by
      split <;> simp
    have hle : m + 1 + (if q = [] then 0 else 1) ≤ h := by
      split
      · omega
      · next hq => have := (hlast hq).1; omega
    have hcons := hl0.symm.trans hl
    obtain ⟨out, e, so⟩ := csvRead_total parse pv hp zero (file.take k) _ _ hl w
      (m + 1 + (if q = [] then 0 else 1)) (by rw [hgl 0 hh]; simp) (by rw [← hcons, hlen]) hw' (by omega)
      (Nat.lt_of_le_of_lt (Nat.mul_le_mul_left w hle) hwh) hs
    rw [← hcons] at so
    have hn : ∃ n, q ≠ [] → ∃ t, n ≤ w ∧ getlines ',' q = (List.range n).map (fun x => c x (m + 1)) ++ t ∧ t.length ≤ 1 := by
      by_cases hq : q = []
      · exact ⟨0, fun h => absurd hq h⟩
      · obtain ⟨hrh, hpre⟩ := hlast hq
        obtain ⟨n, t, h1, h2, h3, -, -⟩ := cells_cut hw (fun x => c x (m + 1))
          (fun x hx => ⟨(hc x _ hx hrh).1, (hc x _ hx hrh).2.1⟩) q hpre
        exact ⟨n, fun _ => ⟨t, h1, h2, h3⟩⟩
    obtain ⟨n, hn⟩ := hn
    refine ⟨out, _, _, n, e, so, hle, by split <;> simp, fun x y hx hy => ?_, fun hq x hx => ?_⟩
    · have : ((((List.range (m + 1)).map fun y => rowText w fun x => c x y) ++
          (if q = [] then [] else [q])).getD y []) = rowText w fun x => c x y := by
        rw [List.getD_eq_getElem?_getD, List.getElem?_append_left (by simpa using hy),
          List.getElem?_eq_getElem (by simpa using hy)]
        simp
      simp only [this, hgl y (by omega)]
      rw [List.getElem?_eq_getElem (by simpa using hx)]
      simp
    · have hq' : q ≠ [] := by
        intro h0
        rw [if_pos h0] at hq
        omega
      obtain ⟨t, h1, h2, h3⟩ := hn hq'
      have : ((((List.range (m + 1)).map fun y => rowText w fun x => c x y) ++
          (if q = [] then [] else [q])).getD (m + 1) []) = q := by
        rw [List.getD_eq_getElem?_getD, if_neg hq', List.getElem?_append_right (by simp)]
        simp
      simp only [this, h2]
      refine ⟨fun hxn => ?_, fun hxn => ?_⟩
      · rw [List.getElem?_append_left (by simpa using hxn), List.getElem?_eq_getElem (by simpa using hxn)]
        simp
      · rw [List.getElem?_eq_none (by simp; omega)]

/-- The value of an integer cell. -/
def cellVal (lo hi : Int) (s : Str) : Int :=
  match parseIntCell lo hi s with
  | .ok v => v
  | _ => 0

theorem parseIntCell_total (lo hi : Int) (s : Str) : parseIntCell lo hi s = .ok (cellVal lo hi s) := by
  unfold cellVal
  have : ∃ v, parseIntCell lo hi s = .ok v := by
    unfold parseIntCell
    simp only
    split
    · exact ⟨_, rfl⟩
    · exact ⟨_, rfl⟩
  obtain ⟨v, hv⟩ := this
  rw [hv]

theorem getlines_intercalate {sep : Char} (cells : List Str) (hne : cells ≠ [])
    (h : ∀ c ∈ cells, c ≠ [] ∧ sep ∉ c) : getlines sep ([sep].intercalate cells) = cells := by
  induction cells with
  | nil => exact absurd rfl hne
  | cons a l ih =>
    cases l with
    | nil =>
      have := getlines_single a (h a (by simp)).2 (h a (by simp)).1
      simpa [List.intercalate] using this
    | cons b l =>
      have e : [sep].intercalate (a :: b :: l) = a ++ sep :: [sep].intercalate (b :: l) := by
        simp [List.intercalate]
      rw [e, getlines_cons _ _ (h a (by simp)).2, ih (by simp) fun c hc => h c (by simp [hc])]

theorem mem_intercalate {sep c : Char} {cells : List Str} (h : c ∈ [sep].intercalate cells) :
    c = sep ∨ ∃ s ∈ cells, c ∈ s := by
  induction cells with
  | nil => simp [List.intercalate] at h
  | cons a l ih =>
    cases l with
    | nil => right; exact ⟨a, by simp, by simpa [List.intercalate] using h⟩
    | cons b l =>
      have e : [sep].intercalate (a :: b :: l) = a ++ sep :: [sep].intercalate (b :: l) := by
        simp [List.intercalate]
      rw [e, List.mem_append, List.mem_cons] at h
      rcases h with h | h | h
      · exact Or.inr ⟨a, by simp, h⟩
      · exact Or.inl h
      · rcases ih h with h | ⟨s, hs, h⟩
        · exact Or.inl h
        · exact Or.inr ⟨s, by simp [hs], h⟩

end TinyDIP.Text
