import Verif.Model.SpecialPix
import Verif.Lemmas.Special
import Verif.Lemmas.Pixelwise
import Verif.Lemmas.Hist
import Verif.Lemmas.Color

/-!
# Lemmas: infinities and NaN in pictures
-/

namespace TinyDIP.Sp

open TinyDIP Image Rnd

theorem le_refl' {a : Dbl} (h : a ≠ .nan) : a.le a := by
  cases a <;> simp_all [Dbl.le]

theorem le_of_lt' {a b : Dbl} (h : a.lt b) : a.le b := by
  cases a <;> cases b <;> simp_all [Dbl.le, Dbl.lt]
  exact h.le

theorem le_of_not_lt' {a b : Dbl} (ha : a ≠ .nan) (hb : b ≠ .nan) (h : ¬ a.lt b) : b.le a := by
  cases a <;> cases b <;> simp_all [Dbl.le, Dbl.lt]

theorem le_trans' {a b c : Dbl} (h1 : a.le b) (h2 : b.le c) : a.le c := by
  cases a <;> cases b <;> cases c <;> simp_all [Dbl.le, Dbl.lt]
  exact h1.trans h2

theorem le_antisymm' {a b : Dbl} (h1 : a.le b) (h2 : b.le a) : a = b := by
  cases a <;> cases b <;> simp_all [Dbl.le, Dbl.lt]
  exact le_antisymm h1 h2

theorem eq_iff {a t : Dbl} : a.eq t ↔ a = t ∧ t ≠ .nan := by
  cases a <;> cases t <;> simp [Dbl.eq]

theorem fold_max_nan (l : List Dbl) : l.foldl (fun m x => if m < x then x else m) Dbl.nan = .nan := by
  induction l with
  | nil => rfl
  | cons x l ih => rw [List.foldl_cons, if_neg (show ¬ Dbl.nan < x from nan_not_lt x)]; exact ih

theorem fold_min_nan (l : List Dbl) : l.foldl (fun m x => if x < m then x else m) Dbl.nan = .nan := by
  induction l with
  | nil => rfl
  | cons x l ih => rw [List.foldl_cons, if_neg (show ¬ x < Dbl.nan from not_lt_nan x)]; exact ih

theorem fold_max (l : List Dbl) : ∀ a : Dbl, a ≠ .nan →
    (l.foldl (fun m x => if m < x then x else m) a ≠ .nan) ∧
    l.foldl (fun m x => if m < x then x else m) a ∈ a :: l ∧
    ∀ x ∈ a :: l, x ≠ .nan → x.le (l.foldl (fun m x => if m < x then x else m) a) := by
  induction l with
  | nil =>
    intro a ha
    refine ⟨ha, by simp, fun x hx _ => ?_⟩
    obtain rfl : x = a := by simpa using hx
    exact le_refl' ha
  | cons y l ih =>
    intro a ha
    rw [List.foldl_cons]
    by_cases h : a < y
    · rw [if_pos h]
      have hy : y ≠ .nan := by rintro rfl; exact not_lt_nan a h
      obtain ⟨h1, h2, h3⟩ := ih y hy
      refine ⟨h1, List.mem_cons_of_mem _ h2, fun x hx hn => ?_⟩
      rcases List.mem_cons.mp hx with rfl | hx
      · exact le_trans' (le_of_lt' h) (h3 y (by simp) hy)
      · exact h3 x hx hn
    · rw [if_neg h]
      obtain ⟨h1, h2, h3⟩ := ih a ha
      refine ⟨h1, ?_, fun x hx hn => ?_⟩
      · rcases List.mem_cons.mp h2 with e | e
        · rw [e]; simp
        · exact List.mem_cons_of_mem _ (List.mem_cons_of_mem _ e)
      · rcases List.mem_cons.mp hx with rfl | hx
        · exact h3 x (by simp) hn
        · rcases List.mem_cons.mp hx with rfl | hx
          · exact le_trans' (le_of_not_lt' ha hn h) (h3 a (by simp) ha)
          · exact h3 x (List.mem_cons_of_mem _ hx) hn

theorem fold_min (l : List Dbl) : ∀ a : Dbl, a ≠ .nan →
    (l.foldl (fun m x => if x < m then x else m) a ≠ .nan) ∧
    l.foldl (fun m x => if x < m then x else m) a ∈ a :: l ∧
    ∀ x ∈ a :: l, x ≠ .nan → (l.foldl (fun m x => if x < m then x else m) a).le x := by
  induction l with
  | nil =>
    intro a ha
    refine ⟨ha, by simp, fun x hx _ => ?_⟩
    obtain rfl : x = a := by simpa using hx
    exact le_refl' ha
  | cons y l ih =>
    intro a ha
    rw [List.foldl_cons]
    by_cases h : y < a
    · rw [if_pos h]
      have hy : y ≠ .nan := by rintro rfl; exact nan_not_lt a h
      obtain ⟨h1, h2, h3⟩ := ih y hy
      refine ⟨h1, List.mem_cons_of_mem _ h2, fun x hx hn => ?_⟩
      rcases List.mem_cons.mp hx with rfl | hx
      · exact le_trans' (h3 y (by simp) hy) (le_of_lt' h)
      · exact h3 x hx hn
    · rw [if_neg h]
      obtain ⟨h1, h2, h3⟩ := ih a ha
      refine ⟨h1, ?_, fun x hx hn => ?_⟩
      · rcases List.mem_cons.mp h2 with e | e
        · rw [e]; simp
        · exact List.mem_cons_of_mem _ (List.mem_cons_of_mem _ e)
      · rcases List.mem_cons.mp hx with rfl | hx
        · exact h3 x (by simp) hn
        · rcases List.mem_cons.mp hx with rfl | hx
          · exact le_trans' (h3 a (by simp) ha) (le_of_not_lt' hn ha h)
          · exact h3 x (List.mem_cons_of_mem _ hx) hn

theorem mem_data {α : Type} {im : Image α} {w h : Nat} {f : Nat → Nat → α} (s : im.Shows w h f) (v : α) :
    v ∈ im.data ↔ ∃ x y, x < w ∧ y < h ∧ f x y = v := by
  rw [s.data_eq, List.mem_map]
  constructor
  · rintro ⟨⟨x, y⟩, hp, e⟩
    have := mem_iterYX.mp hp
    exact ⟨x, y, this.1, this.2, e⟩
  · rintro ⟨x, y, hx, hy, e⟩
    exact ⟨(x, y), mem_iterYX.mpr ⟨hx, hy⟩, e⟩

theorem head_data {α : Type} {im : Image α} {w h : Nat} {f : Nat → Nat → α} (s : im.Shows w h f) (hw : 0 < w)
    (hh : 0 < h) : ∃ l, im.data = f 0 0 :: l := by
  have h0 := s.data? hw hh
  match hd : im.data with
  | [] => rw [hd] at h0; simp at h0
  | a :: l => rw [hd] at h0; exact ⟨l, by simpa using h0⟩

theorem map_shows' {α β : Type} {im : Image α} {w h : Nat} {f : Nat → Nat → α} (s : im.Shows w h f) (c : α → β) :
    (⟨im.size, im.data.map c⟩ : Image β).Shows w h (fun x y => c (f x y)) := by
  refine Image.Shows.of_data s.w_lt s.h_lt s.fits s.size (by simp [s.len]) ?_
  intro x y hx hy
  rw [List.getElem?_map, s.data? hx hy]
  rfl

theorem normalize_shows {im : Image Dbl} {w h : Nat} {f : Nat → Nat → Dbl} (s : im.Shows w h f) (hw : 0 < w)
    (hh : 0 < h) {lo hi : Dbl} (h1 : imMin im = .ok lo) (h2 : imMax im = .ok hi) :
    ∃ out, normalize im = .ok out ∧ out.Shows w h fun x y => ((f x y).sub lo).div (hi.sub lo) := by
  have wf := s.wf
  have h0 : 0 < im.size.prod := by rw [s.size]; simpa using Nat.mul_pos hw hh
  have ws : ∀ t, (im.setAllValue t).WF := fun t => ⟨by simp [setAllValue, wf.len], wf.fits, wf.sizes⟩
  have e1 : subtract Dbl.sub (im.setAllValue hi) (im.setAllValue lo) =
      .ok ⟨im.size, im.data.map fun _ => hi.sub lo⟩ := by
    rw [subtract, checkSizeSame, if_neg (by simp [setAllValue]), Res.ok_bind,
      pixelwiseTransform2_ok Dbl.sub (ws hi) (ws lo) rfl h0]
    simp only [setAllValue, List.zipWith_map, List.zipWith_self]
  have e2 : subtract Dbl.sub im (im.setAllValue lo) = .ok ⟨im.size, im.data.map fun v => v.sub lo⟩ := by
    rw [subtract, checkSizeSame, if_neg (by simp [setAllValue]), Res.ok_bind,
      pixelwiseTransform2_ok Dbl.sub wf (ws _) rfl h0]
    simp only [setAllValue, List.zipWith_map_right, List.zipWith_self]
  have w1 : (⟨im.size, im.data.map fun v => v.sub lo⟩ : Image Dbl).WF := wf.map _
  have w2 : (⟨im.size, im.data.map fun _ => hi.sub lo⟩ : Image Dbl).WF := wf.map _
  have e3 : normalize im = .ok ⟨im.size, im.data.map fun v => (v.sub lo).div (hi.sub lo)⟩ := by
    simp only [normalize, h1, h2, Res.ok_bind, e1, e2, divides]
    rw [pixelwiseTransform2_ok Dbl.div w1 w2 rfl h0]
    simp only [List.zipWith_map, List.zipWith_self]
  exact ⟨_, e3, map_shows' s _⟩

open Classical in
theorem replaceOrd_ok (im : Image Dbl) (old new : Dbl) (order : List Nat)
    (hp : order.Perm (List.range im.data.length)) :
    replaceOrd order im old new = .ok ⟨im.size, im.data.map fun a => if a.eq old then new else a⟩ := by
  have key : ∀ (order : List Nat) (d : List Dbl), order.Nodup → (∀ i ∈ order, i < d.length) →
      ∃ d', loop (fun d i => do
        let a ← vget d i
        if a.eq old then vset d i new else .ok d) order d = .ok d' ∧ d'.length = d.length ∧
        (∀ i ∈ order, d'[i]? = d[i]?.map fun a => if a.eq old then new else a) ∧
        ∀ i, i ∉ order → d'[i]? = d[i]? := by
    intro order
    induction order with
    | nil => intro d _ _; exact ⟨d, rfl, rfl, by simp, by simp⟩
    | cons k ks ih =>
      intro d hnd hb
      have hk : k < d.length := hb k (by simp)
      have hstep : (do
          let a ← vget d k
          if a.eq old then vset d k new else .ok d : Res (List Dbl))
          = .ok (d.set k (if d[k].eq old then new else d[k])) := by
        rw [vget_eq_ok hk, Res.ok_bind]
        split
        · rename_i h; rw [vset_eq_ok _ hk]
        · simp
      obtain ⟨d', e, hl, h1, h2⟩ := ih (d.set k (if d[k].eq old then new else d[k]))
        (List.nodup_cons.mp hnd).2 (fun i hi => by simpa using hb i (by simp [hi]))
      have hkn := (List.nodup_cons.mp hnd).1
      refine ⟨d', by rw [loop, hstep]; exact e, by simpa using hl, ?_, ?_⟩
      · intro i hi
        by_cases hik : i = k
        · subst hik
          rw [h2 i hkn]; simp [hk]
        · rw [h1 i (by simpa [hik] using hi), List.getElem?_set]; simp [Ne.symm hik]
      · intro i hi
        simp only [List.mem_cons, not_or] at hi
        rw [h2 i hi.2, List.getElem?_set]; simp [Ne.symm hi.1]
  obtain ⟨d', e, hl, h1, _⟩ := key order im.data (hp.nodup_iff.mpr List.nodup_range)
    (fun i hi => List.mem_range.mp (hp.mem_iff.mp hi))
  rw [replaceOrd, e, Res.ok_bind]
  congr 2
  apply List.ext_getElem?
  intro i
  by_cases hi : i < im.data.length
  · rw [h1 i (hp.mem_iff.mpr (List.mem_range.mpr hi)), List.getElem?_map]
  · rw [List.getElem?_eq_none (by omega), List.getElem?_eq_none (by simp; omega)]

end TinyDIP.Sp
