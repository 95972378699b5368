import Verif.Model.RefineSpecial
import Verif.Spec.WarpSpecial
import Verif.Props.StitchSpecial

/-!
# Property C222: refining a homography with infinities and NaN

Full statement of C222: `refine_homography` hands exactly the matches that agree with the model to the solver when
there are at least four, and returns what the solver returns; otherwise, and when the solver fails, it returns the model.
NaN, in the model or in the threshold, is no agreement.
-/

namespace TinyDIP.Props

open TinyDIP Rnd Sp Dbl Stitch

open scoped Classical

/-! ## C222 -/

theorem inliersD_ok (t : Dbl) {kp1 kp2 : List Pt} {ms : List (Nat × Nat)} (hm : InRange kp1 kp2 ms) (H : Sp.Hom) :
    inliersD t kp1 kp2 ms H = .ok ((ms.map (matchPts kp1 kp2)).filter fun m => decide (AgreesD t H m)) := by
  unfold inliersD
  generalize hf : (fun (acc : List (Pt × Pt)) (m : Nat × Nat) => _ : List (Pt × Pt) → Nat × Nat → Res (List (Pt × Pt))) = f
  have step : ∀ (acc : List (Pt × Pt)) (m : Nat × Nat), m.1 < kp1.length → m.2 < kp2.length →
      f acc m = .ok (acc ++ if AgreesD t H (matchPts kp1 kp2 m) then [matchPts kp1 kp2 m] else []) := by
    intro acc m h1 h2
    have e : matchPts kp1 kp2 m = (kp1[m.1], kp2[m.2]) := by
      unfold matchPts
      rw [List.getD_eq_getElem?_getD, List.getD_eq_getElem?_getD, List.getElem?_eq_getElem h1,
        List.getElem?_eq_getElem h2]
      rfl
    rw [← hf, e]
    show ((vget kp1 m.1).bind fun p1 => (vget kp2 m.2).bind fun p2 => _) = _
    rw [vget_eq_ok h1, vget_eq_ok h2]
    show (if (lin H.h31 H.h32 H.h33 kp1[m.1].1 kp1[m.1].2).abs.lt (.num (1 / 2 ^ 52)) then Res.ok acc
      else if (missD H (kp1[m.1], kp2[m.2])).lt t then .ok (acc ++ [(kp1[m.1], kp2[m.2])]) else .ok acc) = _
    by_cases hw : (lin H.h31 H.h32 H.h33 kp1[m.1].1 kp1[m.1].2).abs.lt (.num (1 / 2 ^ 52))
    · rw [if_pos hw, if_neg (fun h => h.1 hw), List.append_nil]
    · rw [if_neg hw]
      by_cases hd : (missD H (kp1[m.1], kp2[m.2])).lt t
      · rw [if_pos hd, if_pos ⟨hw, hd⟩]
      · rw [if_neg hd, if_neg (fun h => hd h.2), List.append_nil]
  clear hf
  suffices h : ∀ acc : List (Pt × Pt), loop f ms acc =
      .ok (acc ++ (ms.map (matchPts kp1 kp2)).filter fun m => decide (AgreesD t H m)) by
    simpa using h []
  induction ms with
  | nil => intro acc; simp [loop]
  | cons m l ih =>
    intro acc
    obtain ⟨h1, h2⟩ := hm m (by simp)
    have ih' := ih (fun m hm' => hm m (by simp [hm']))
    rw [loop, step acc m h1 h2, List.map_cons, List.filter_cons]
    show loop f l _ = _
    rw [ih']
    by_cases h : AgreesD t H (matchPts kp1 kp2 m) <;> simp [h]

/-- For every solver, all matches, every model and every threshold: the result is the solver's answer for the matches
that agree, in their order, when there are at least four and the solver gives an answer, and otherwise the model. -/
theorem C222_refine (solve : List (Pt × Pt) → Option Sp.Hom) {kp1 kp2 : List Pt} {ms : List (Nat × Nat)}
    (hm : InRange kp1 kp2 ms) (H : Sp.Hom) (threshold : Dbl) (good : List (Pt × Pt))
    (hg : good = (ms.map (matchPts kp1 kp2)).filter fun m => decide (AgreesD (threshold.mul threshold) H m)) :
    (good.length < 4 → refineD solve kp1 kp2 ms (some H) threshold = .ok (some H)) ∧
    (4 ≤ good.length → solve good = none → refineD solve kp1 kp2 ms (some H) threshold = .ok (some H)) ∧
    (∀ R, 4 ≤ good.length → solve good = some R → refineD solve kp1 kp2 ms (some H) threshold = .ok (some R)) := by
  have e := inliersD_ok (threshold.mul threshold) hm H
  rw [← hg] at e
  refine ⟨fun h => ?_, fun h hs => ?_, fun R h hs => ?_⟩ <;> unfold refineD <;> simp only [e, Res.ok_bind]
  · rw [if_pos h]
  · rw [if_neg (by omega), hs]
  · rw [if_neg (by omega), hs]

/-- The empty matrix stays empty. -/
theorem C222_empty (solve : List (Pt × Pt) → Option Sp.Hom) (kp1 kp2 : List Pt) (ms : List (Nat × Nat))
    (threshold : Dbl) : refineD solve kp1 kp2 ms none threshold = .ok none := rfl

theorem xaddn (a : Dbl) : a.add .nan = .nan := by cases a <;> rfl
theorem xmuln (a : Dbl) : a.mul .nan = .nan := by cases a <;> rfl
theorem xdivn (a : Dbl) : a.div .nan = .nan := by cases a <;> rfl
theorem xnadd (a : Dbl) : Dbl.nan.add a = .nan := rfl
theorem xnmul (a : Dbl) : Dbl.nan.mul a = .nan := rfl
theorem xndiv (a : Dbl) : Dbl.nan.div a = .nan := by cases a <;> rfl
theorem xnsub (a : Dbl) : Dbl.nan.sub a = .nan := rfl

theorem missD_nan {H : Sp.Hom} (h : Dbl.nan ∈ H.entries) (m : (Nat × Nat) × (Nat × Nat)) : missD H m = .nan := by
  unfold missD rowD
  simp only [Hom.entries, List.mem_cons, List.not_mem_nil, or_false] at h
  rcases h with h | h | h | h | h | h | h | h | h <;> rw [← h] <;>
    simp [xaddn, xmuln, xdivn, xnadd, xnmul, xndiv, xnsub]

theorem lt_nan (a : Dbl) : ¬ a.lt .nan := by cases a <;> exact fun h => h

/-- A model with a NaN anywhere, and every model with the threshold NaN, is returned as it is: no match agrees. -/
theorem C222_nan (solve : List (Pt × Pt) → Option Sp.Hom) {kp1 kp2 : List Pt} {ms : List (Nat × Nat)}
    (hm : InRange kp1 kp2 ms) (H : Sp.Hom) (threshold : Dbl) (hn : Dbl.nan ∈ H.entries ∨ threshold = .nan) :
    refineD solve kp1 kp2 ms (some H) threshold = .ok (some H) := by
  refine (C222_refine solve hm H threshold _ rfl).1 ?_
  have : (ms.map (matchPts kp1 kp2)).filter (fun m => decide (AgreesD (threshold.mul threshold) H m)) = [] := by
    rw [List.filter_eq_nil_iff]
    intro m _
    simp only [decide_eq_true_eq]
    rintro ⟨-, h⟩
    rcases hn with hn | rfl
    · rw [missD_nan hn] at h; exact h
    · exact lt_nan _ h
  rw [this]
  simp

/-! Four matches that agree with the identity. -/

noncomputable def identityD : Sp.Hom :=
  ⟨.num 1, .num 0, .num 0, .num 0, .num 1, .num 0, .num 0, .num 0, .num 1⟩

theorem identity_agrees (p : Nat × Nat) (hx : p.1 ≤ 100) (hy : p.2 ≤ 100) : AgreesD (.num 4) identityD (p, p) := by
  have r : ∀ n : Nat, n ≤ 100 → Dbl.rnd n = .num n := fun n hn => ofNat_eq (hn.trans (by norm_num))
  have r0 : Dbl.rnd 0 = .num 0 := by have := r 0 (by norm_num); simpa using this
  have r1 : Dbl.rnd 1 = .num 1 := by have := r 1 (by norm_num); simpa using this
  have hw : rowD identityD.h31 identityD.h32 identityD.h33 p = .num 1 := by
    unfold rowD identityD
    simp only [ofNat_eq (hx.trans (show 100 ≤ 2 ^ 53 by norm_num)), ofNat_eq (hy.trans (show 100 ≤ 2 ^ 53 by norm_num)),
      Dbl.mul, Dbl.add, zero_mul, r0, add_zero, zero_add, r1]
  have hxr : rowD identityD.h11 identityD.h12 identityD.h13 p = .num p.1 := by
    unfold rowD identityD
    simp only [ofNat_eq (hx.trans (show 100 ≤ 2 ^ 53 by norm_num)), ofNat_eq (hy.trans (show 100 ≤ 2 ^ 53 by norm_num)),
      Dbl.mul, Dbl.add, zero_mul, r0, one_mul, add_zero, r _ hx]
  have hyr : rowD identityD.h21 identityD.h22 identityD.h23 p = .num p.2 := by
    unfold rowD identityD
    simp only [ofNat_eq (hx.trans (show 100 ≤ 2 ^ 53 by norm_num)), ofNat_eq (hy.trans (show 100 ≤ 2 ^ 53 by norm_num)),
      Dbl.mul, Dbl.add, zero_mul, r0, one_mul, zero_add, add_zero, r _ hy]
  constructor
  · unfold HasImage
    rw [hw]
    show ¬ |(1 : ℝ)| < 1 / 2 ^ 52
    norm_num
  · unfold missD
    simp only [hw, hxr, hyr, ofNat_eq (hx.trans (show 100 ≤ 2 ^ 53 by norm_num)),
      ofNat_eq (hy.trans (show 100 ≤ 2 ^ 53 by norm_num)), Dbl.div, Dbl.sub, Dbl.neg, div_one, one_ne_zero, if_false, r _ hx,
      r _ hy, Dbl.add, add_neg_cancel, r0, Dbl.mul, mul_zero, add_zero]
    show (0 : ℝ) < 4
    norm_num

theorem two_sq : (Dbl.num 2).mul (.num 2) = .num 4 := by
  have := ofNat_eq (n := 4) (by norm_num)
  unfold Dbl.ofNat at this
  show Dbl.rnd (2 * 2) = _
  norm_num at this ⊢
  exact this

example : refineD (fun l => if l.length = 4 then some noModel else none) [(0, 0), (9, 0), (0, 9), (9, 9)]
    [(0, 0), (9, 0), (0, 9), (9, 9)] [(0, 0), (1, 1), (2, 2), (3, 3)] (some identityD) (.num 2) = .ok (some noModel) := by
  have hf : (([(0, 0), (1, 1), (2, 2), (3, 3)] : List (Nat × Nat)).map
      (matchPts [(0, 0), (9, 0), (0, 9), (9, 9)] [(0, 0), (9, 0), (0, 9), (9, 9)])).filter
      (fun m => decide (AgreesD ((Dbl.num 2).mul (.num 2)) identityD m)) =
      [((0, 0), (0, 0)), ((9, 0), (9, 0)), ((0, 9), (0, 9)), ((9, 9), (9, 9))] := by
    rw [two_sq, List.filter_eq_self.2]
    · rfl
    · intro m hm
      simp only [List.map_cons, List.map_nil, List.mem_cons, List.not_mem_nil, or_false] at hm
      simp only [decide_eq_true_eq]
      rcases hm with rfl | rfl | rfl | rfl <;> exact identity_agrees _ (by decide) (by decide)
  exact (C222_refine _ (fun m hm => by
    simp only [List.mem_cons, List.not_mem_nil, or_false] at hm
    rcases hm with rfl | rfl | rfl | rfl <;> simp) identityD (.num 2) _ hf.symm).2.2 noModel (by decide) (by simp)

example := C222_nan (kp1 := [(0, 0)]) (kp2 := [(1, 1)]) (ms := [(0, 0)]) (fun _ => none) (fun m hm => by
    simp only [List.mem_cons, List.not_mem_nil, or_false] at hm
    subst hm; simp)
  ⟨.num 1, .num 0, .num 0, .num 0, .nan, .num 0, .num 0, .num 0, .num 1⟩ (.num 2) (.inl (by simp [Hom.entries]))

end TinyDIP.Props
