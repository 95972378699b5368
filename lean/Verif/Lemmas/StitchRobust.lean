import Verif.Lemmas.Stitch
import Verif.Lemmas.Conv
import Verif.Lemmas.Match

/-!
# Lemmas about the robust estimator
-/

namespace TinyDIP.Stitch

open TinyDIP Mat

section
variable {K : Type} [Field K] [LinearOrder K]

theorem vget_getD {α : Type} {l : List α} {i : Nat} (h : i < l.length) (d : α) : vget l i = .ok (l.getD i d) := by
  rw [vget_eq_ok h]; simp [h]

theorem errorSq_ok (eps t : K) {H : Mat K} {M : Matrix (Fin 3) (Fin 3) K} (hH : H.Is M) (p1 p2 : Pt) :
    errorSq eps t H p1 p2 = .ok (scoredError eps t M (p1, p2)) := by
  unfold errorSq scoredError
  rw [readHom_ok hH]
  simp only [Res.ok_bind, homOf_w, homOf_px, homOf_py]
  split
  · rfl
  · refine congrArg Res.ok ?_
    unfold distSq
    ring

theorem cost_ok (score : K → K → K) (eps t : K) {kp1 kp2 : List Pt} {ms : List (Nat × Nat)}
    (hm : InRange kp1 kp2 ms) {H : Mat K} {M : Matrix (Fin 3) (Fin 3) K} (hH : H.Is M) :
    cost score eps t kp1 kp2 ms H =
      .ok ((ms.map fun m => score (scoredError eps t M (matchPts kp1 kp2 m)) t).sum) := by
  unfold cost
  rw [loop_sum (fun m => score (scoredError eps t M (matchPts kp1 kp2 m)) t)]
  · rw [zero_add]
  · intro m hmm s
    obtain ⟨h1, h2⟩ := hm m hmm
    simp only [vget_getD h1 (0, 0), vget_getD h2 (0, 0), Res.ok_bind, errorSq_ok eps t hH]
    rfl

theorem pick4_eq (acc ds : List Nat) (ha : acc.length ≤ 4) :
    pick4 acc ds = (acc ++ (ds.filter fun d => !acc.contains d).eraseDups).take 4 := by
  induction ds generalizing acc with
  | nil => simp [pick4, List.take_of_length_le ha]
  | cons d ds ih =>
    rw [pick4]
    by_cases h4 : acc.length < 4
    · rw [if_pos h4]
      by_cases hd : d ∈ acc
      · rw [if_pos hd, ih acc ha, List.filter_cons_of_neg (by simpa using hd)]
      · rw [if_neg hd, ih (acc ++ [d]) (by simp; omega), List.filter_cons_of_pos (by simpa using hd),
          List.eraseDups_cons, List.append_assoc, List.singleton_append, List.filter_filter]
        have hfe : (fun b => !(acc ++ [d]).contains b) = fun a => (!a == d && !acc.contains a) := by
          funext b
          by_cases h1 : b = d <;> by_cases h2 : b ∈ acc <;> simp [h1, h2]
        rw [hfe]
    · rw [if_neg h4, List.take_append_of_le_length (by omega), List.take_of_length_le ha]

theorem samplePoints_ok {kp1 kp2 : List Pt} {ms : List (Nat × Nat)} (hm : InRange kp1 kp2 ms) {ds : List Nat}
    (hd : ∀ d ∈ ds, d < ms.length) :
    samplePoints kp1 kp2 ms (pick4 [] ds) = .ok (sampleOf kp1 kp2 ms ds) := by
  unfold samplePoints sampleOf
  have hp := pick4_eq [] ds (by simp)
  simp only [List.contains_nil, Bool.not_false, List.filter_true, List.nil_append] at hp
  rw [hp]
  have := loop_collect (fun i => do
      let m ← vget ms i
      let p1 ← vget kp1 m.1
      let p2 ← vget kp2 m.2
      Res.ok (p1, p2)) (fun i => matchPts kp1 kp2 (ms.getD i (0, 0))) (ds.eraseDups.take 4)
    (by
      intro i hi
      have hi' : i < ms.length := hd i (by simpa using List.mem_of_mem_take hi)
      have hmem : ms.getD i (0, 0) ∈ ms := by simp [hi']
      obtain ⟨h1, h2⟩ := hm _ hmem
      simp only [vget_getD hi' (0, 0), vget_getD h1 (0, 0), vget_getD h2 (0, 0), Res.ok_bind]
      rfl) []
  rw [List.nil_append] at this
  rw [← this]
  apply loop_congr
  intro i _ s
  cases vget ms i with
  | throw e => rfl
  | ub => rfl
  | ok m =>
    simp only [Res.ok_bind]
    cases vget kp1 m.1 with
    | throw e => rfl
    | ub => rfl
    | ok p1 =>
      simp only [Res.ok_bind]
      cases vget kp2 m.2 <;> rfl

theorem sampleOf_length (kp1 kp2 : List Pt) (ms : List (Nat × Nat)) (ds : List Nat) :
    (sampleOf kp1 kp2 ms ds).length ≤ 4 := by
  unfold sampleOf
  rw [List.length_map, List.length_take]
  omega

/-- What the loop keeps: nothing yet, or the first candidate of least cost below `big`. -/
theorem robust_loop (solve : List (Pt × Pt) → Res (Option (Mat K))) (score : K → K → K) (eps t : K)
    {kp1 kp2 : List Pt} {ms : List (Nat × Nat)} (hm : InRange kp1 kp2 ms) (h4 : 4 ≤ ms.length)
    (costOf : Mat K → K) (hc : ∀ H, (∃ l, l.length ≤ 4 ∧ solve l = .ok (some H)) → cost score eps t kp1 kp2 ms H = .ok (costOf H))
    (hs : ∀ l, l.length ≤ 4 → ∃ r, solve l = .ok r)
    (draws : List (List Nat)) (hd : ∀ ds ∈ draws, ∀ d ∈ ds, d < ms.length) (s : Mat K × K) :
    ∃ r, loop (fun (s : Mat K × K) ds =>
      if ms.length < 4 then .ok s
      else do
        let sample ← samplePoints kp1 kp2 ms (pick4 [] ds)
        let cand ← solve sample
        match cand with
        | none => .ok s
        | some H => do
          let c ← cost score eps t kp1 kp2 ms H
          if c < s.2 then .ok (H, c) else .ok s) draws s = .ok r ∧
      r.2 ≤ s.2 ∧
      (∀ ds ∈ draws, ∀ H, solve (sampleOf kp1 kp2 ms ds) = .ok (some H) → r.2 ≤ costOf H) ∧
      (r = s ∨ r.2 < s.2 ∧ r.2 = costOf r.1 ∧
        ∃ pre ds post, draws = pre ++ ds :: post ∧ solve (sampleOf kp1 kp2 ms ds) = .ok (some r.1) ∧
          ∀ ds' ∈ pre, ∀ H, solve (sampleOf kp1 kp2 ms ds') = .ok (some H) → r.2 < costOf H) := by
  induction draws generalizing s with
  | nil => exact ⟨s, rfl, le_rfl, by simp, Or.inl rfl⟩
  | cons ds draws ih =>
    have ih := ih (fun ds h => hd ds (by simp [h]))
    rw [loop]
    rw [if_neg (by omega), samplePoints_ok hm (hd ds (by simp))]
    simp only [Res.ok_bind]
    obtain ⟨r, hr⟩ := hs (sampleOf kp1 kp2 ms ds) (sampleOf_length _ _ _ _)
    rw [hr]
    simp only [Res.ok_bind]
    cases r with
    | none =>
      obtain ⟨r, e, h1, h2, h3⟩ := ih s
      refine ⟨r, e, h1, ?_, ?_⟩
      · intro ds' hds' H hH
        rcases List.mem_cons.1 hds' with rfl | h
        · rw [hr] at hH; cases hH
        · exact h2 ds' h H hH
      · rcases h3 with h3 | ⟨h3, h4, pre, d, post, he, h5, h6⟩
        · exact Or.inl h3
        · refine Or.inr ⟨h3, h4, ds :: pre, d, post, by rw [he]; rfl, h5, ?_⟩
          intro ds' hds' H hH
          rcases List.mem_cons.1 hds' with rfl | h
          · rw [hr] at hH; cases hH
          · exact h6 ds' h H hH
    | some H =>
      simp only [hc H ⟨_, sampleOf_length _ _ _ _, hr⟩, Res.ok_bind]
      by_cases hlt : costOf H < s.2
      · rw [if_pos hlt]
        obtain ⟨r, e, h1, h2, h3⟩ := ih (H, costOf H)
        refine ⟨r, e, h1.trans hlt.le, ?_, ?_⟩
        · intro ds' hds' H' hH'
          rcases List.mem_cons.1 hds' with rfl | h
          · rw [hr] at hH'; cases hH'; exact h1
          · exact h2 ds' h H' hH'
        · right
          rcases h3 with h3 | ⟨h3, h4, pre, d, post, he, h5, h6⟩
          · subst h3
            exact ⟨hlt, rfl, [], ds, draws, rfl, hr, by simp⟩
          · refine ⟨h3.trans hlt, h4, ds :: pre, d, post, by rw [he]; rfl, h5, ?_⟩
            intro ds' hds' H' hH'
            rcases List.mem_cons.1 hds' with rfl | h
            · rw [hr] at hH'; cases hH'; exact h3
            · exact h6 ds' h H' hH'
      · rw [if_neg hlt]
        obtain ⟨r, e, h1, h2, h3⟩ := ih s
        refine ⟨r, e, h1, ?_, ?_⟩
        · intro ds' hds' H' hH'
          rcases List.mem_cons.1 hds' with rfl | h
          · rw [hr] at hH'; cases hH'; exact h1.trans (not_lt.1 hlt)
          · exact h2 ds' h H' hH'
        · rcases h3 with h3 | ⟨h3, h4, pre, d, post, he, h5, h6⟩
          · exact Or.inl h3
          · refine Or.inr ⟨h3, h4, ds :: pre, d, post, by rw [he]; rfl, h5, ?_⟩
            intro ds' hds' H' hH'
            rcases List.mem_cons.1 hds' with rfl | h
            · rw [hr] at hH'; cases hH'; exact lt_of_lt_of_le h3 (not_lt.1 hlt)
            · exact h6 ds' h H' hH'

open Classical in
theorem inliers_ok (eps t : K) {kp1 kp2 : List Pt} {ms : List (Nat × Nat)} (hm : InRange kp1 kp2 ms) {H : Mat K}
    {M : Matrix (Fin 3) (Fin 3) K} (hH : H.Is M) :
    inliers eps t kp1 kp2 ms H =
      .ok ((ms.map (matchPts kp1 kp2)).filter fun p => decide (Inlier eps t M p)) := by
  unfold inliers
  rw [Match.loop_collectL _ (fun m => if Inlier eps t M (matchPts kp1 kp2 m) then [matchPts kp1 kp2 m] else [])]
  · rw [List.nil_append]
    refine congrArg Res.ok ?_
    clear hm
    induction ms with
    | nil => rfl
    | cons m ms ih =>
      rw [List.flatMap_cons, List.map_cons, ih]
      by_cases c : Inlier eps t M (matchPts kp1 kp2 m)
      · rw [if_pos c, List.filter_cons_of_pos (by simpa using c)]; rfl
      · rw [if_neg c, List.filter_cons_of_neg (by simpa using c)]; rfl
  · intro m hmm acc
    obtain ⟨h1, h2⟩ := hm m hmm
    simp only [vget_getD h1 (0, 0), vget_getD h2 (0, 0), Res.ok_bind, readHom_ok hH, homOf_w, homOf_px, homOf_py]
    have hd : distSq M (matchPts kp1 kp2 m).1 (matchPts kp1 kp2 m).2 =
        ((project M ((kp1.getD m.1 (0, 0)).1 : K) ((kp1.getD m.1 (0, 0)).2 : K)).1 - ((kp2.getD m.2 (0, 0)).1 : K)) *
          ((project M ((kp1.getD m.1 (0, 0)).1 : K) ((kp1.getD m.1 (0, 0)).2 : K)).1 - ((kp2.getD m.2 (0, 0)).1 : K)) +
        ((project M ((kp1.getD m.1 (0, 0)).1 : K) ((kp1.getD m.1 (0, 0)).2 : K)).2 - ((kp2.getD m.2 (0, 0)).2 : K)) *
          ((project M ((kp1.getD m.1 (0, 0)).1 : K) ((kp1.getD m.1 (0, 0)).2 : K)).2 - ((kp2.getD m.2 (0, 0)).2 : K)) := by
      unfold distSq matchPts
      ring
    rw [← hd]
    by_cases c1 : |homog M ((kp1.getD m.1 (0, 0)).1 : K) ((kp1.getD m.1 (0, 0)).2 : K) 2| < eps
    · rw [if_pos c1, if_neg (by rintro ⟨h, -⟩; exact absurd c1 (not_lt.2 h)), List.append_nil]
    · rw [if_neg c1]
      by_cases c2 : distSq M (matchPts kp1 kp2 m).1 (matchPts kp1 kp2 m).2 < t
      · rw [if_pos c2, if_pos ⟨not_lt.1 c1, c2⟩]
        rfl
      · rw [if_neg c2, if_neg (by rintro ⟨-, h⟩; exact c2 h), List.append_nil]

end

end TinyDIP.Stitch
