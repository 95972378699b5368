import Verif.Model.StitchFind
import Verif.Spec.StitchFind
import Verif.Props.Homography
import Verif.Props.Match
import Verif.Props.SiftDescriptor
import Verif.Props.Stitch
import Verif.Props.Resample
import Verif.Props.Draw
import Verif.Props.Color
import Verif.Lemmas.Blocks

/-!
# C130, C131: from two photographs to a homography; drawing matches
-/

namespace TinyDIP.Stitch

open TinyDIP Mat Image Color Resample Props

/-! ## C130 find_stitch_homography, imstitch -/

section
variable {w h : Nat}

/-- The plane on which key points are looked for: the brightest channel of every pixel. -/
theorem C130_brightness {im : Image RGB} {f : Nat → Nat → RGB} (s : im.Shows w h f) (hw : 0 < w) (hh : 0 < h) :
    ∃ v, vPlane im = .ok v ∧ v.Shows w h fun x y => brightness (f x y) := by
  have h0 : 0 < im.size.prod := by rw [s.size]; simpa using ⟨hw, hh⟩
  unfold vPlane rgb2hsvImage
  rw [convertAll_ok rgb2hsv s.wf h0 (fun v _ => rfl), Res.ok_bind]
  have sh := map_shows s rgb2hsv
  unfold getPlane
  rw [getPlaneOrd_ok 0 _ sh.wf (by simpa using h0) 2 (fun p => p.c2) (fun p => rfl) _ (by
    rw [sh.wf.count])]
  refine ⟨_, rfl, ?_⟩
  exact map_shows sh Px3.c2

end

theorem squaredDistance_eq (a b : List ℝ) : squaredDistance a b = descriptorDistance a b := by
  unfold squaredDistance descriptorDistance
  induction a generalizing b with
  | nil => simp
  | cons x a ih =>
    cases b with
    | nil => simp
    | cons y b => simp only [List.zip_cons_cons, List.map_cons, List.sum_cons, List.zipWith_cons_cons, ih]; ring

/-- The distance of the matcher is the sequential `squared_euclidean_distance` of C57. -/
theorem C130_distance (a b : List ℝ) (hl : a.length = b.length) : sqEuclid a b = .ok (squaredDistance a b) := by
  rw [squaredDistance_eq, sqEuclid, sqEuclidGo_eq a b 0 hl, zero_add]; rfl

example := C130_distance [1, 2, 3] [4, 6, 3] rfl

theorem descriptor_total {v : Image ℝ} {w h : Nat} {f : Nat → Nat → ℝ} (s : v.Shows w h f) (hw : w < 2 ^ 64 - 2)
    (hh : h < 2 ^ 64 - 2) {p : Pt} (h1 : p.1 < 2 ^ 63) (h2 : p.2 < 2 ^ 63) :
    ∃ d, Sift.keypointDescriptor v p.1 p.2 8 = .ok d ∧ d.length = 128 := by
  by_cases hb : p.1 < 8 ∨ p.2 < 8
  · obtain ⟨d, e, n, _⟩ := C87_border_violation v (Nat.le_refl 8) hb (by omega)
    exact ⟨d, e, n⟩
  · obtain ⟨d, e, n, _⟩ := C87_descriptor_partial s hw hh (Nat.le_refl 8) (cx := p.1) (cy := p.2) (by omega) (by omega)
      (by omega) (by omega) (by omega)
    exact ⟨d, e, n⟩

theorem collect_points {γ : Type} (G : Pt → Res γ) (g : Pt → γ) (l : List Pt) (h : ∀ p ∈ l, G p = .ok (g p)) (acc : List γ) :
    loop (fun (acc : List γ) (p : Pt) => do
      let d ← G p
      Res.ok (acc ++ [d])) l acc = .ok (acc ++ l.map g) := by
  induction l generalizing acc with
  | nil => simp [loop]
  | cons p l ih =>
    rw [loop, h p (by simp), Res.ok_bind]
    have := ih (fun q hq => h q (by simp [hq])) (acc ++ [g p])
    simp only [this, List.map_cons, List.append_assoc, List.singleton_append]

theorem descriptors_map (v : Image ℝ) (g : Pt → List ℝ) (l : List Pt)
    (h : ∀ p ∈ l, Sift.keypointDescriptor v p.1 p.2 8 = .ok (g p)) : descriptors v l = .ok (l.map g) := by
  have := collect_points (fun p => Sift.keypointDescriptor v p.1 p.2 8) g l h []
  unfold descriptors
  rw [this]
  simp

theorem descriptors_ok {v : Image ℝ} {w h : Nat} {f : Nat → Nat → ℝ} (s : v.Shows w h f) (hw : w < 2 ^ 64 - 2)
    (hh : h < 2 ^ 64 - 2) {kps : List Pt} (hk : ∀ p ∈ kps, p.1 < 2 ^ 63 ∧ p.2 < 2 ^ 63) :
    ∃ ds, descriptors v kps = .ok ds ∧ DescriptorsOf v kps ds := by
  have : ∀ p : Pt, ∃ d : List ℝ, p ∈ kps → Sift.keypointDescriptor v p.1 p.2 8 = .ok d ∧ d.length = 128 := by
    intro p
    by_cases hp : p ∈ kps
    · obtain ⟨d, hd⟩ := descriptor_total s hw hh (hk p hp).1 (hk p hp).2
      exact ⟨d, fun _ => hd⟩
    · exact ⟨[], fun h => absurd h hp⟩
  choose g hg using this
  refine ⟨kps.map g, descriptors_map v g kps fun p hp => (hg p hp).1, ?_⟩
  · unfold DescriptorsOf
    clear hk
    induction kps with
    | nil => exact .nil
    | cons p ps ih => exact .cons (hg p (by simp)) (ih fun q hq => hg q (by simp [hq]))

/-- Cross-checked matches refer to descriptors that exist, whatever the distances. -/
theorem robust_inRange {D : Type} (sched1 sched2 : List Nat → List Nat) (hs1 : ∀ l, (sched1 l).Perm l)
    (hs2 : ∀ l, (sched2 l).Perm l) (dist : D → D → ℝ) (big : ℝ) (ds1 ds2 : List D) (ratio : ℝ) :
    ∃ ms, Match.findRobustMatches sched1 sched2 dist big ds1 ds2 ratio = .ok ms ∧
      (ms.map Prod.fst).Nodup ∧ (ms.map Prod.snd).Nodup ∧
      ∀ m ∈ ms, m.1 < ds1.length ∧ m.2 < ds2.length := by
  obtain ⟨m12, m21, ms, e1, e2, e, hm, n1, n2⟩ := C52_robust sched1 sched2 hs1 hs2 dist big ds1 ds2 ratio
  refine ⟨ms, e, n1, n2, ?_⟩
  have first : ∀ (sched : List Nat → List Nat) (_ : ∀ l, (sched l).Perm l) (a b : List D) (out : List (Nat × Nat)),
      Match.findRawMatches sched dist big a b ratio = .ok out → ∀ m ∈ out, m.1 < a.length := by
    intro sched hs a b out eo m hmm
    obtain ⟨g, hg, eg⟩ := Match.findRawMatches_total dist big a b ratio
    rw [eg sched hs] at eo
    injection eo with eo
    subst eo
    obtain ⟨i, hi, hmi⟩ := List.mem_flatMap.1 hmm
    have hi := List.mem_range.1 ((hs _).mem_iff.1 hi)
    rcases hg i with h | ⟨j, h⟩
    · rw [h] at hmi; simp at hmi
    · rw [h] at hmi
      rw [List.mem_singleton.1 hmi]
      exact hi
  intro m hmm
  have := (hm m.1 m.2).1 hmm
  exact ⟨first sched1 hs1 ds1 ds2 m12 e1 _ this.1, first sched2 hs2 ds2 ds1 m21 e2 _ this.2⟩

/-- What the solver returns for a list of ordinary length. -/
theorem computeHomography_total {eps tol : ℝ} (heps : 0 < eps) (ht : 0 < tol) (k : Nat) (points : List (Pt × Pt))
    (hf : 18 * points.length < 2 ^ 64) :
    ∃ r, computeHomography eps k tol points = .ok r ∧
      ∀ H, r = some H → 4 ≤ points.length ∧ ∃ M : Matrix (Fin 3) (Fin 3) ℝ, H.Is M ∧ M 2 2 = 1 := by
  by_cases h4 : points.length < 4
  · exact ⟨none, C53_few eps tol k points h4, fun H h => by cases h⟩
  · obtain ⟨c, _, _, h1, h2⟩ := C53_homography heps ht k points (by omega) (by omega)
    by_cases hc : |c 8| < eps
    · exact ⟨none, h1 hc, fun H h => by cases h⟩
    · obtain ⟨H, e, hH, h22⟩ := h2 (not_lt.1 hc)
      refine ⟨some H, e, ?_⟩
      rintro H' h
      injection h with h
      subst h
      exact ⟨by omega, _, hH, h22⟩

/-- The parameters make sense: positive constants, orders that are orders of the same iterations, and random numbers
below the number of matches. -/
structure Finder.Valid (P : Finder) : Prop where
  eps : 0 < P.eps
  tol : 0 < P.tol
  sched1 : ∀ l, (P.sched1 l).Perm l
  sched2 : ∀ l, (P.sched2 l).Perm l
  draws : ∀ n, ∀ ds ∈ P.draws n, ∀ d ∈ ds, d < n

/-- The zero matrix. -/
theorem zero_is : (mk' 0 3 3 : Mat ℝ).Is (0 : Matrix (Fin 3) (Fin 3) ℝ) := by
  refine (mk'_reads (0 : ℝ) (m := 3) (n := 3) (by norm_num)).is.congr ?_
  ext i j; rfl

theorem mutual_of {P : Finder} (V : P.Valid) {d1 d2 : List (List ℝ)} {ms : List (Nat × Nat)}
    (e : Match.findRobustMatches P.sched1 P.sched2 descriptorDistance P.big d1 d2 P.ratio = .ok ms)
    (n1 : (ms.map Prod.fst).Nodup) (n2 : (ms.map Prod.snd).Nodup)
    (hb : ∀ a ∈ d1, ∀ b ∈ d2, squaredDistance a b < P.big ∧ squaredDistance b a < P.big) :
    MutualMatches P.big P.ratio d1 d2 ms := by
  have hd : squaredDistance = descriptorDistance := by funext a b; exact squaredDistance_eq a b
  obtain ⟨out, e', hm⟩ := C52_mutual P.sched1 P.sched2 V.sched1 V.sched2 descriptorDistance P.big d1 d2 P.ratio
    (fun a ha b hb' => by rw [← hd]; exact (hb a ha b hb').1) (fun a ha b hb' => by rw [← hd]; exact (hb b hb' a ha).2)
  rw [e] at e'
  injection e' with e'
  subst e'
  exact ⟨by rw [hd]; exact hm, n1, n2⟩

open Classical in
/-- For all images of ordinary size, every key point detector that returns (whatever points it returns), every
order of the parallel loops and every sequence of random numbers the search for a homography returns. Let `ms` be the
cross-checked matches of the descriptors. Without key points in one of the images, or with fewer than four matches, the
result is the empty matrix. Otherwise it is obtained from a best model `M₀` of the sampled
ones — no sampled model has a lower cost — and is the model solved from all inliers of `M₀`, or the model
of `M₀` itself when there are fewer than four inliers or the solver fails. -/
theorem C130_homography {P : Finder} (V : P.Valid) {img1 img2 : Image RGB} {w1 h1 w2 h2 : Nat}
    {f1 f2 : Nat → Nat → RGB} (s1 : img1.Shows w1 h1 f1) (s2 : img2.Shows w2 h2 f2) (hw1 : 0 < w1) (hh1 : 0 < h1)
    (hw2 : 0 < w2) (hh2 : 0 < h2) (bw1 : w1 < 2 ^ 63) (bh1 : h1 < 2 ^ 63) (bw2 : w2 < 2 ^ 63) (bh2 : h2 < 2 ^ 63)
    {v1 v2 : Image ℝ} (sv1 : v1.Shows w1 h1 fun x y => brightness (f1 x y))
    (sv2 : v2.Shows w2 h2 fun x y => brightness (f2 x y)) {kp1 kp2 : List Pt} (e1 : P.keypoints v1 = .ok kp1)
    (e2 : P.keypoints v2 = .ok kp2) (hk1 : ∀ p ∈ kp1, p.1 < 2 ^ 63 ∧ p.2 < 2 ^ 63)
    (hk2 : ∀ p ∈ kp2, p.1 < 2 ^ 63 ∧ p.2 < 2 ^ 63) (hn : 18 * kp1.length < 2 ^ 64) :
    ∃ R d1 d2 ms, findStitchHomography P img1 img2 = .ok R ∧
      DescriptorsOf v1 kp1 d1 ∧ DescriptorsOf v2 kp2 d2 ∧ InRange kp1 kp2 ms ∧
      ((∀ a ∈ d1, ∀ b ∈ d2, squaredDistance a b < P.big ∧ squaredDistance b a < P.big) →
        MutualMatches P.big P.ratio d1 d2 ms) ∧
      (kp1 = [] ∨ kp2 = [] ∨ ms.length < 4 → R.rows = 0 ∧ R.cols = 0) ∧
      (kp1 ≠ [] → kp2 ≠ [] → 4 ≤ ms.length →
        ∃ (R₀ : Mat ℝ) (M₀ : Matrix (Fin 3) (Fin 3) ℝ) (c : ℝ), R₀.Is M₀ ∧
          (∀ ds ∈ P.draws ms.length, ∀ H M,
            computeHomography P.eps P.steps P.tol (sampleOf kp1 kp2 ms ds) = .ok (some H) → H.Is M →
              c ≤ totalCost P.score P.eps (P.threshold * P.threshold) kp1 kp2 ms M) ∧
          ((M₀ = 0 ∧ c = P.big ∧ R = R₀) ∨
            (M₀ 2 2 = 1 ∧ c = totalCost P.score P.eps (P.threshold * P.threshold) kp1 kp2 ms M₀ ∧ c < P.big ∧
              ∃ ds ∈ P.draws ms.length,
                computeHomography P.eps P.steps P.tol (sampleOf kp1 kp2 ms ds) = .ok (some R₀))) ∧
          ∃ inl, inl = (ms.map (matchPts kp1 kp2)).filter
              (fun p => decide (Inlier P.eps (P.threshold * P.threshold) M₀ p)) ∧
            ((4 ≤ inl.length ∧ computeHomography P.eps P.steps P.tol inl = .ok (some R) ∧
                ∃ N : Matrix (Fin 3) (Fin 3) ℝ, R.Is N ∧ N 2 2 = 1) ∨
              ((inl.length < 4 ∨ computeHomography P.eps P.steps P.tol inl = .ok none) ∧ R = R₀))) := by
  obtain ⟨v1', ev1, sv1'⟩ := C130_brightness s1 hw1 hh1
  obtain ⟨v2', ev2, sv2'⟩ := C130_brightness s2 hw2 hh2
  obtain rfl : v1 = v1' := sv1.ext sv1' fun _ _ _ _ => rfl
  obtain rfl : v2 = v2' := sv2.ext sv2' fun _ _ _ _ => rfl
  obtain ⟨d1, ed1, hd1⟩ := descriptors_ok sv1 (by omega) (by omega) hk1
  obtain ⟨d2, ed2, hd2⟩ := descriptors_ok sv2 (by omega) (by omega) hk2
  obtain ⟨ms, ems, n1, n2, hr⟩ := robust_inRange P.sched1 P.sched2 V.sched1 V.sched2 descriptorDistance P.big d1 d2 P.ratio
  have hr : InRange kp1 kp2 ms := by
    intro m hm
    obtain ⟨a, b⟩ := hr m hm
    exact ⟨by rw [hd1.length_eq]; exact a, by rw [hd2.length_eq]; exact b⟩
  have hmut := mutual_of V ems n1 n2
  unfold findStitchHomography
  rw [ev1, Res.ok_bind, ev2, Res.ok_bind, e1, Res.ok_bind, e2, Res.ok_bind]
  by_cases hE : kp1 = [] ∨ kp2 = []
  · rw [if_pos (by simpa using hE)]
    refine ⟨_, d1, d2, ms, rfl, hd1, hd2, hr, hmut, fun _ => ⟨rfl, rfl⟩, fun a b => ?_⟩
    rcases hE with h | h
    · exact absurd h a
    · exact absurd h b
  rw [if_neg (by simpa using hE), ed1, Res.ok_bind, ed2, Res.ok_bind, ems, Res.ok_bind]
  by_cases h4 : ms.length < 4
  · rw [if_pos h4]
    exact ⟨_, d1, d2, ms, rfl, hd1, hd2, hr, hmut, fun _ => ⟨rfl, rfl⟩, fun _ _ h => absurd h (by omega)⟩
  rw [if_neg h4]
  have hlen : ms.length ≤ kp1.length := by
    have hsub : (ms.map Prod.fst) ⊆ List.range kp1.length := by
      intro i hi
      obtain ⟨m, hm, rfl⟩ := List.mem_map.1 hi
      exact List.mem_range.2 (hr m hm).1
    have := (n1.subperm hsub).length_le
    simpa using this
  obtain ⟨R₀, c, eR, hmin, hor⟩ := C54_robust (computeHomography P.eps P.steps P.tol) P.score P.eps P.big P.threshold hr
    (by omega)
    (fun l hl => by
      obtain ⟨r, e, _⟩ := computeHomography_total V.eps V.tol P.steps l (by omega)
      exact ⟨r, e⟩)
    (fun l H hl e => by
      obtain ⟨r, e', hH⟩ := computeHomography_total V.eps V.tol P.steps l (by omega)
      rw [e'] at e
      obtain ⟨-, M, hM, -⟩ := hH H (Res.ok.inj e)
      exact ⟨M, hM⟩)
    (P.draws ms.length) (V.draws ms.length)
  rw [eR, Res.ok_bind]
  obtain ⟨M₀, hM₀, hcase⟩ : ∃ M₀ : Matrix (Fin 3) (Fin 3) ℝ, R₀.Is M₀ ∧ ((M₀ = 0 ∧ c = P.big) ∨
      (M₀ 2 2 = 1 ∧ c = totalCost P.score P.eps (P.threshold * P.threshold) kp1 kp2 ms M₀ ∧ c < P.big ∧
        ∃ ds ∈ P.draws ms.length,
          computeHomography P.eps P.steps P.tol (sampleOf kp1 kp2 ms ds) = .ok (some R₀))) := by
    rcases hor with ⟨h1, h2⟩ | ⟨M, hM, h1, h2, pre, ds, post, h3, h4', -⟩
    · exact ⟨0, by rw [h1]; exact zero_is, Or.inl ⟨rfl, h2⟩⟩
    · refine ⟨M, hM, Or.inr ⟨?_, h1, h2, ds, by rw [h3]; simp, h4'⟩⟩
      have hl4 := sampleOf_length kp1 kp2 ms ds
      obtain ⟨r, e', hH⟩ := computeHomography_total V.eps V.tol P.steps (sampleOf kp1 kp2 ms ds) (by omega)
      rw [e'] at h4'
      obtain ⟨-, M', hM', h22⟩ := hH R₀ (Res.ok.inj h4')
      have a := hM.entry 2 2
      rw [hM'.entry 2 2] at a
      rw [← Res.ok.inj a, h22]
  obtain ⟨r1, r2, r3⟩ := C54_refine (computeHomography P.eps P.steps P.tol) P.eps P.threshold hr hM₀ rfl
  obtain ⟨inl, hinl⟩ : ∃ inl, inl = (ms.map (matchPts kp1 kp2)).filter
    (fun p => decide (Inlier P.eps (P.threshold * P.threshold) M₀ p)) := ⟨_, rfl⟩
  rw [← hinl] at r1 r2 r3
  have hil : inl.length ≤ ms.length := by
    rw [hinl]
    refine (List.length_filter_le _ _).trans ?_
    simp
  have hzero : M₀ = 0 → inl = [] := by
    intro hz
    rw [hinl, List.filter_eq_nil_iff]
    rintro p - hp
    have : Inlier P.eps (P.threshold * P.threshold) M₀ p := by simpa using hp
    have h0 := this.1
    rw [hz] at h0
    simp only [homog, Matrix.zero_mulVec, Pi.zero_apply, abs_zero] at h0
    exact absurd h0 (not_le.2 V.eps)
  have fin : ∀ R, (R = R₀ ∨ M₀ ≠ 0) → ((M₀ = 0 ∧ c = P.big ∧ R = R₀) ∨
      (M₀ 2 2 = 1 ∧ c = totalCost P.score P.eps (P.threshold * P.threshold) kp1 kp2 ms M₀ ∧ c < P.big ∧
        ∃ ds ∈ P.draws ms.length,
          computeHomography P.eps P.steps P.tol (sampleOf kp1 kp2 ms ds) = .ok (some R₀))) := by
    intro R hR
    rcases hcase with ⟨a, b⟩ | h
    · exact Or.inl ⟨a, b, hR.resolve_right (by simp [a])⟩
    · exact Or.inr h
  by_cases hi : inl.length < 4
  · refine ⟨R₀, d1, d2, ms, r1 hi, hd1, hd2, hr, hmut, ?_, fun _ _ _ =>
      ⟨R₀, M₀, c, hM₀, hmin, fin R₀ (Or.inl rfl), inl, hinl, Or.inr ⟨Or.inl hi, rfl⟩⟩⟩
    rintro (h | h | h)
    · exact absurd (Or.inl h) hE
    · exact absurd (Or.inr h) hE
    · exact absurd h h4
  · obtain ⟨r, er, hH⟩ := computeHomography_total V.eps V.tol P.steps inl (by omega)
    cases r with
    | none =>
      refine ⟨R₀, d1, d2, ms, r2 (by omega) er, hd1, hd2, hr, hmut, ?_, fun _ _ _ =>
        ⟨R₀, M₀, c, hM₀, hmin, fin R₀ (Or.inl rfl), inl, hinl, Or.inr ⟨Or.inr er, rfl⟩⟩⟩
      rintro (h | h | h)
      · exact absurd (Or.inl h) hE
      · exact absurd (Or.inr h) hE
      · exact absurd h h4
    | some R =>
      obtain ⟨-, N, hN, hN22⟩ := hH R rfl
      refine ⟨R, d1, d2, ms, r3 R (by omega) er, hd1, hd2, hr, hmut, ?_, fun _ _ _ =>
        ⟨R₀, M₀, c, hM₀, hmin, fin R (Or.inr fun hz => hi (by rw [hzero hz]; simp)), inl, hinl,
          Or.inl ⟨by omega, er, N, hN, hN22⟩⟩⟩
      rintro (h | h | h)
      · exact absurd (Or.inl h) hE
      · exact absurd (Or.inr h) hE
      · exact absurd h h4

/-- Stitching two images whose homography is empty (no key points, too few matches) or has no inverse gives the
image without sizes; it is how failure is reported. -/
theorem C130_failure {P : Finder} (δ : ℝ) (hδ : 0 < δ) (interp : Image Rgb → ℝ → ℝ → Res Rgb)
    (orderW orderB : Nat → Nat → List (Nat × Nat)) {img1 img2 : Image RGB} {R : Mat ℝ}
    (e : findStitchHomography P img1 img2 = .ok R)
    (h : (R.rows = 0 ∧ R.cols = 0) ∨ ∃ M : Matrix (Fin 3) (Fin 3) ℝ, R.Is M ∧ |M.det| < δ) :
    imstitch P (fun d => decide (|d| < δ)) interp orderW orderB img1 img2 = .ok ⟨[], []⟩ := by
  unfold imstitch
  rw [e, Res.ok_bind]
  unfold createStitched
  rcases h with ⟨h, -⟩ | ⟨M, hM, hdet⟩
  · rw [if_pos (by simp [Mat.isEmpty, h])]
  · have hE : R.isEmpty = false := by simp [Mat.isEmpty, hM.rows, hM.cols]
    obtain ⟨E, eE, hEe⟩ := (C29_inverse δ hδ hM).1 hdet
    rw [if_neg (by simp [hE]), eE, Res.ok_bind, if_pos hEe]

/-- The three channels as numbers. -/
def channels (p : RGB) : Rgb := (p.c0.toNat, p.c1.toNat, p.c2.toNat)

theorem numbers_shows {img : Image RGB} {w h : Nat} {f : Nat → Nat → RGB} (s : img.Shows w h f) :
    (numbers img).Shows w h fun x y => channels (f x y) := map_shows s channels

/-- Otherwise the two images, image 1 first, are stitched with the homography found: the result lies on the canvas
described by C89 and is what `create_stitched_image` gives for them, for all orders of its loops. `im1` and `im2` are
the images with their channels as numbers. Missing: a sign of failure when no homography is found, see
`C130_no_model_violation`. -/
theorem C130_imstitch_partial {P : Finder} {δ : ℝ} {interp : Image Rgb → ℝ → ℝ → Res Rgb}
    {orderW orderB orderB' : Nat → Nat → List (Nat × Nat)} {orderP : Nat → List Nat}
    (os : Orders orderW orderB orderB' orderP) {img1 img2 : Image RGB} {im1 im2 : Image Rgb} {R : Mat ℝ}
    (e : findStitchHomography P img1 img2 = .ok R) {w1 h1 w2 h2 Bx By : Nat} {f1 f2 : Nat → Nat → RGB}
    {g : ℝ → ℝ → Rgb} {M N : Matrix (Fin 3) (Fin 3) ℝ} (s1 : img1.Shows w1 h1 f1) (s2 : img2.Shows w2 h2 f2)
    (n2 : im2.Shows w2 h2 fun x y => channels (f2 x y))
    (sc : Scene δ interp im1 im2 R w1 h1 w2 h2 Bx By (fun x y => channels (f1 x y)) g M N) :
    ∃ (ow oh : Nat) (tx ty : ℝ) (out : Image Rgb) (fo : Nat → Nat → Rgb),
      imstitch P (fun d => decide (|d| < δ)) interp orderW orderB img1 img2 = .ok out ∧ out.Shows ow oh fo ∧
      createStitched (fun d => decide (|d| < δ)) P.eps interp orderW orderB im1 im2 R = .ok out ∧
      0 ≤ tx ∧ tx < 1 ∧ 0 ≤ ty ∧ ty < 1 ∧ (w1 : ℝ) + tx ≤ ow ∧ (h1 : ℝ) + ty ≤ oh ∧
      ∀ c ∈ corners w2 h2, 0 ≤ (project N (c.1 : ℝ) (c.2 : ℝ)).1 + tx ∧
        (project N (c.1 : ℝ) (c.2 : ℝ)).1 + tx ≤ ow ∧ 0 ≤ (project N (c.1 : ℝ) (c.2 : ℝ)).2 + ty ∧
        (project N (c.1 : ℝ) (c.2 : ℝ)).2 + ty ≤ oh := by
  have e1 : numbers img1 = im1 := (numbers_shows s1).ext sc.image1 fun _ _ _ _ => rfl
  have e2 : numbers img2 = im2 := (numbers_shows s2).ext n2 fun _ _ _ _ => rfl
  obtain ⟨ow, oh, tx, ty, out, -, fo, -, e', so, -, -, a, b, c, d, x, y, cs, -⟩ := C89_canvas_partial (eps := P.eps) sc os
  refine ⟨ow, oh, tx, ty, out, fo, ?_, so, e', a, b, c, d, x, y, cs⟩
  unfold imstitch
  rw [e, Res.ok_bind, e1, e2]
  exact e'

/-- The search does not report every failure with the empty matrix: with four matches or more, and no sample for
which a model is found (for instance because the number of iterations is zero), it returns the zero
matrix, which is not empty. A caller that goes on with it has no homography. -/
theorem C130_no_model_violation {P : Finder} (V : P.Valid) {img1 img2 : Image RGB} {w1 h1 w2 h2 : Nat}
    {f1 f2 : Nat → Nat → RGB} (s1 : img1.Shows w1 h1 f1) (s2 : img2.Shows w2 h2 f2) (hw1 : 0 < w1) (hh1 : 0 < h1)
    (hw2 : 0 < w2) (hh2 : 0 < h2) (bw1 : w1 < 2 ^ 63) (bh1 : h1 < 2 ^ 63) (bw2 : w2 < 2 ^ 63) (bh2 : h2 < 2 ^ 63)
    {v1 v2 : Image ℝ} (sv1 : v1.Shows w1 h1 fun x y => brightness (f1 x y))
    (sv2 : v2.Shows w2 h2 fun x y => brightness (f2 x y)) {kp1 kp2 : List Pt} (e1 : P.keypoints v1 = .ok kp1)
    (e2 : P.keypoints v2 = .ok kp2) (hk1 : ∀ p ∈ kp1, p.1 < 2 ^ 63 ∧ p.2 < 2 ^ 63)
    (hk2 : ∀ p ∈ kp2, p.1 < 2 ^ 63 ∧ p.2 < 2 ^ 63) (hn : 18 * kp1.length < 2 ^ 64)
    (hno : ∀ ms : List (Nat × Nat), ∀ ds ∈ P.draws ms.length, ∀ H,
      computeHomography P.eps P.steps P.tol (sampleOf kp1 kp2 ms ds) ≠ .ok (some H)) :
    ∃ R, findStitchHomography P img1 img2 = .ok R ∧
      ((R.rows = 0 ∧ R.cols = 0) ∨ (R.rows = 3 ∧ R.cols = 3 ∧ R.Is (0 : Matrix (Fin 3) (Fin 3) ℝ))) ∧
      ∃ d1 d2 ms, DescriptorsOf v1 kp1 d1 ∧ DescriptorsOf v2 kp2 d2 ∧
        ((∀ a ∈ d1, ∀ b ∈ d2, squaredDistance a b < P.big ∧ squaredDistance b a < P.big) →
          MutualMatches P.big P.ratio d1 d2 ms) ∧
        (kp1 ≠ [] → kp2 ≠ [] → 4 ≤ ms.length → R.Is (0 : Matrix (Fin 3) (Fin 3) ℝ)) := by
  obtain ⟨R, d1, d2, ms, e, hd1, hd2, -, hm, hempty, hfull⟩ := C130_homography V s1 s2 hw1 hh1 hw2 hh2 bw1 bh1 bw2 bh2
    sv1 sv2 e1 e2 hk1 hk2 hn
  have key : kp1 ≠ [] → kp2 ≠ [] → 4 ≤ ms.length → R.Is (0 : Matrix (Fin 3) (Fin 3) ℝ) := by
    intro a b c
    obtain ⟨R₀, M₀, c, hM₀, -, h | ⟨-, -, -, ds, hds, hs⟩, -⟩ := hfull a b c
    · rw [h.2.2, ← h.1]; exact hM₀
    · exact absurd hs (hno ms ds hds R₀)
  refine ⟨R, e, ?_, d1, d2, ms, hd1, hd2, hm, key⟩
  by_cases hE : kp1 = [] ∨ kp2 = [] ∨ ms.length < 4
  · exact Or.inl (hempty hE)
  · have := key (fun h => hE (.inl h)) (fun h => hE (.inr (.inl h))) (by
      by_contra h; exact hE (.inr (.inr (by omega))))
    exact Or.inr ⟨this.rows, this.cols, this⟩

/-- Parameters that make sense: two iterations, the MSAC score, a detector that finds the same five points in every
image. -/
noncomputable def exampleFinder : Finder where
  keypoints _ := .ok ptsA
  sched1 := id
  sched2 := List.reverse
  score := msacScore
  draws n := if n < 5 then [] else [[4, 4, 2, 0, 2, 1], [0, 1, 2, 3]]
  eps := 1 / 1000
  big := 1000000
  steps := 100
  tol := 1 / 1000000
  ratio := 7 / 10
  threshold := 2

/-- The hypotheses are met by two black images of different sizes. -/
example : exampleFinder.Valid ∧
    (∃ v, vPlane (Image.ofSizes (⟨0, 0, 0⟩ : RGB) [30, 20]) = .ok v ∧
      v.Shows 30 20 (fun _ _ => brightness ⟨0, 0, 0⟩) ∧ exampleFinder.keypoints v = .ok ptsA) ∧
    ∀ p ∈ ptsA, p.1 < 2 ^ 63 ∧ p.2 < 2 ^ 63 := by
  refine ⟨⟨by norm_num [exampleFinder], by norm_num [exampleFinder], fun l => .refl l, fun l => l.reverse_perm, ?_⟩, ?_,
    by decide⟩
  · intro n ds hds d hd
    simp only [exampleFinder] at hds
    split at hds
    · simp at hds
    · have : d ≤ 4 := by
        rcases List.mem_cons.1 hds with rfl | h
        · revert d; decide
        · rw [List.mem_singleton.1 h] at hd; revert d; decide
      omega
  · obtain ⟨v, e, s⟩ := C130_brightness (ofSizes_shows (⟨0, 0, 0⟩ : RGB) (w := 30) (h := 20) (by omega) (by omega)
      (by omega)) (by omega) (by omega)
    exact ⟨v, e, s, rfl⟩

/-! ## C131 draw_matches

Full statement: the images are shown side by side, and for every match the places of its two key points are marked and
joined. When the heights differ the lower image is stretched but its key points are not moved: see the violation. -/

section
variable {α : Type} {w h : Nat}

theorem drawPoint_step {im : Image α} {f : Nat → Nat → α} (s : im.Shows w h f) (px py : Nat) (v : α)
    (hx : px < 2 ^ 62) (hy : py < 2 ^ 62) {sched : List (Nat × Nat) → List (Nat × Nat)} (hs : ∀ l, (sched l).Perm l) :
    ∃ out g, im.drawPointSched sched px py v 5 = .ok out ∧ out.Shows w h g ∧
      (∀ x y, x < w → y < h → g x y = f x y ∨ (InDisc px py 5 x y ∧ g x y = v)) ∧
      (5 ≤ px → 5 ≤ py → ∀ x y, x < w → y < h → InDisc px py 5 x y → g x y = v) := by
  by_cases hb : 5 ≤ px ∧ 5 ≤ py
  · obtain ⟨out, e, so⟩ := C45_partial im w h f s px py 5 v hb.1 hb.2 (by omega) (by omega) sched hs
    refine ⟨out, _, e, so, fun x y _ _ => ?_, fun _ _ x y _ _ hd => by simp [hd]⟩
    by_cases hd : InDisc px py 5 x y
    · exact Or.inr ⟨hd, by simp [hd]⟩
    · exact Or.inl (by simp [hd])
  · obtain ⟨out, g, e, so, hg⟩ := C45_only_disc_partial im w h f s px py 5 v (by omega) (by omega) sched
    exact ⟨out, g, e, so, hg, fun h1 h2 => absurd ⟨h1, h2⟩ hb⟩

theorem nearLine_left (p q : Int × Int) : NearLine p q p := by
  unfold NearLine; simp

theorem nearLine_right (p q : Int × Int) : NearLine p q q := by
  unfold NearLine
  rw [show (q.1 - p.1) * (q.2 - p.2) - (q.2 - p.2) * (q.1 - p.1) = 0 by ring]
  simp

theorem onMark_of_must {p q : Nat × Nat} {x y : Nat} (hm : MustMark p q x y) : OnMark p q x y := by
  rcases hm with h | h | h | h
  · obtain ⟨rfl, rfl⟩ := Prod.mk.inj h.symm
    exact Or.inl (nearLine_left _ _)
  · obtain ⟨rfl, rfl⟩ := Prod.mk.inj h.symm
    exact Or.inl (nearLine_right _ _)
  · exact Or.inr (Or.inl h.2.2)
  · exact Or.inr (Or.inr h.2.2)

/-- The second point of a match on the canvas. -/
def moved (offset : Nat) (p : Pt) : Pt := (p.1 + offset, p.2)

theorem drawMatch_ok {canvas : Image α} {f : Nat → Nat → α} (s : canvas.Shows w h f) {kp1 kp2 : List Pt} {m : Nat × Nat}
    {p1 p2 : Pt} (e1 : kp1[m.1]? = some p1) (e2 : kp2[m.2]? = some p2) (b1 : p1.1 < 2 ^ 60 ∧ p1.2 < 2 ^ 60)
    (b2 : p2.1 < 2 ^ 60 ∧ p2.2 < 2 ^ 60) {offset fuel : Nat} (bo : offset < 2 ^ 60)
    (hf : max (((p2.1 + offset : Nat) : Int) - p1.1).natAbs ((p2.2 : Int) - p1.2).natAbs + 1 ≤ fuel) (colour : α)
    {sched : List (Nat × Nat) → List (Nat × Nat)} (hs : ∀ l, (sched l).Perm l) :
    ∃ out g, drawMatch sched fuel offset kp1 kp2 colour m canvas = some (.ok out) ∧ out.Shows w h g ∧
      (∀ x y, x < w → y < h → g x y = f x y ∨ (OnMark p1 (moved offset p2) x y ∧ g x y = colour)) ∧
      (∀ x y, x < w → y < h → MustMark p1 (moved offset p2) x y → g x y = colour) := by
  have hq : wadd p2.1 offset = p2.1 + offset := wadd_of_lt (by omega)
  obtain ⟨o1, path, q1, q2, q3, -, -, q6, q7⟩ := C46_draw_line canvas w h f s p1 (p2.1 + offset, p2.2) colour
    (by omega) (by constructor <;> dsimp only <;> omega)
  obtain ⟨o2, g2, e3, s3, a3, c3⟩ := drawPoint_step q7 p1.1 p1.2 colour (by omega) (by omega) hs
  obtain ⟨o3, g3, e4, s4, a4, c4⟩ := drawPoint_step s3 (p2.1 + offset) p2.2 colour (by omega) (by omega) hs
  have v1 : vget kp1 m.1 = .ok p1 := by unfold vget; rw [e1]
  have v2 : vget kp2 m.2 = .ok p2 := by unfold vget; rw [e2]
  refine ⟨o3, g3, ?_, s4, fun x y hx hy => ?_, fun x y hx hy hm => ?_⟩
  · unfold drawMatch
    rw [v1, v2]
    simp only [hq]
    rw [q1 fuel hf]
    simp only [e3, Res.ok_bind, e4]
  · rcases a4 x y hx hy with h4 | ⟨d4, h4⟩
    · rcases a3 x y hx hy with h3 | ⟨d3, h3⟩
      · by_cases hp : ((x : Int), (y : Int)) ∈ path
        · exact Or.inr ⟨Or.inl (q6 _ hp), by rw [h4, h3, if_pos hp]⟩
        · exact Or.inl (by rw [h4, h3, if_neg hp])
      · exact Or.inr ⟨Or.inr (Or.inl d3), by rw [h4, h3]⟩
    · exact Or.inr ⟨Or.inr (Or.inr d4), h4⟩
  · have keep : g2 x y = colour → g3 x y = colour := fun h2 => by
      rcases a4 x y hx hy with h4 | ⟨-, h4⟩
      · rw [h4, h2]
      · exact h4
    have keep1 : ((x : Int), (y : Int)) ∈ path → g3 x y = colour := fun hp => keep (by
      rcases a3 x y hx hy with h3 | ⟨-, h3⟩
      · rw [h3, if_pos hp]
      · exact h3)
    rcases hm with h | h | h | h
    · obtain ⟨rfl, rfl⟩ := Prod.mk.inj h.symm
      exact keep1 (List.mem_of_mem_head? (by rw [q2]; rfl))
    · obtain ⟨hx1, hy1⟩ := Prod.mk.inj h
      exact keep1 (List.mem_of_mem_getLast? (by rw [q3, hx1, hy1]; rfl))
    · exact keep (c3 h.1 h.2.1 x y hx hy h.2.2)
    · exact c4 h.1 h.2.1 x y hx hy h.2.2

/-- Drawing the matches on any canvas: every pixel is unchanged, or has the colour of a match on whose mark it lies;
and what must be marked for a match has its colour or that of a later match that covers it. -/
theorem drawMatchesGo_ok {kp1 kp2 : List Pt} (b1 : ∀ p ∈ kp1, p.1 < 2 ^ 60 ∧ p.2 < 2 ^ 60)
    (b2 : ∀ p ∈ kp2, p.1 < 2 ^ 60 ∧ p.2 < 2 ^ 60) {offset fuel : Nat} (bo : offset < 2 ^ 60)
    (hf : ∀ p1 ∈ kp1, ∀ p2 ∈ kp2,
      max (((p2.1 + offset : Nat) : Int) - p1.1).natAbs ((p2.2 : Int) - p1.2).natAbs + 1 ≤ fuel)
    (colour : Nat → α) {sched : List (Nat × Nat) → List (Nat × Nat)} (hs : ∀ l, (sched l).Perm l)
    (ms : List (Nat × Nat)) (hr : InRange kp1 kp2 ms) (k : Nat) {canvas : Image α} {f : Nat → Nat → α}
    (s : canvas.Shows w h f) :
    ∃ out g, drawMatchesGo sched fuel offset kp1 kp2 colour k ms canvas = some (.ok out) ∧ out.Shows w h g ∧
      ∀ x y, x < w → y < h →
        (g x y = f x y ∨ ∃ j m, ms[j]? = some m ∧ g x y = colour (k + j) ∧
          OnMark (matchPts kp1 kp2 m).1 (moved offset (matchPts kp1 kp2 m).2) x y) ∧
        ∀ j m, ms[j]? = some m → MustMark (matchPts kp1 kp2 m).1 (moved offset (matchPts kp1 kp2 m).2) x y →
          ∃ i m', j ≤ i ∧ ms[i]? = some m' ∧ g x y = colour (k + i) ∧
            OnMark (matchPts kp1 kp2 m').1 (moved offset (matchPts kp1 kp2 m').2) x y := by
  induction ms generalizing k canvas f with
  | nil =>
    exact ⟨canvas, f, rfl, s, fun x y _ _ => ⟨Or.inl rfl, fun j m hj => by simp at hj⟩⟩
  | cons m ms ih =>
    obtain ⟨r1, r2⟩ := hr m (by simp)
    have g1 : kp1[m.1]? = some (matchPts kp1 kp2 m).1 := by simp [matchPts, r1]
    have g2 : kp2[m.2]? = some (matchPts kp1 kp2 m).2 := by simp [matchPts, r2]
    obtain ⟨o1, c1, e1, s1, a1, m1⟩ := drawMatch_ok s g1 g2 (b1 _ (List.mem_of_getElem? g1)) (b2 _ (List.mem_of_getElem? g2))
      bo (hf _ (List.mem_of_getElem? g1) _ (List.mem_of_getElem? g2)) (colour k) hs
    obtain ⟨out, g, e, so, hg⟩ := ih (fun m' hm' => hr m' (by simp [hm'])) (k + 1) s1
    refine ⟨out, g, ?_, so, fun x y hx hy => ⟨?_, fun j m' hj hm' => ?_⟩⟩
    · rw [drawMatchesGo, e1]
      exact e
    · rcases (hg x y hx hy).1 with h1 | ⟨j, m', hj, hc, ho⟩
      · rcases a1 x y hx hy with h2 | ⟨ho, h2⟩
        · exact Or.inl (by rw [h1, h2])
        · exact Or.inr ⟨0, m, rfl, by rw [h1, h2]; rfl, ho⟩
      · exact Or.inr ⟨j + 1, m', by simpa using hj, by rw [hc]; congr 1; omega, ho⟩
    · cases j with
      | zero =>
        obtain rfl : m = m' := by simpa using hj
        rcases (hg x y hx hy).1 with h1 | ⟨i, m'', hi, hc, ho⟩
        · exact ⟨0, m, le_rfl, rfl, by rw [h1, m1 x y hx hy hm']; rfl, onMark_of_must hm'⟩
        · exact ⟨i + 1, m'', by omega, by simpa using hi, by rw [hc]; congr 1; omega, ho⟩
      | succ j =>
        obtain ⟨i, m'', hi, hi', hc, ho⟩ := (hg x y hx hy).2 j m' (by simpa using hj) hm'
        exact ⟨i + 1, m'', by omega, by simpa using hi', by rw [hc]; congr 1; omega, ho⟩

end

theorem matchCanvas_ok {img1 img2 : Image RGB} {w1 h1 w2 h2 : Nat} {f1 f2 : Nat → Nat → RGB} (s1 : img1.Shows w1 h1 f1)
    (s2 : img2.Shows w2 h2 f2) (hw1 : 0 < w1) (hh1 : 0 < h1) (hw2 : 0 < w2) (hh2 : 0 < h2)
    (hw : w1 + w2 < 2 ^ 64) (hf : (w1 + w2) * max h1 h2 < 2 ^ 64) :
    ∃ canvas, matchCanvas img1 img2 = .ok (canvas, w1) ∧
      canvas.Shows (w1 + w2) (max h1 h2) (sideBySide w1 h1 h2 (max h1 h2) f1 f2) := by
  have hm : 0 < max h1 h2 := by omega
  have hb : max h1 h2 < 2 ^ 64 := by have := s1.h_lt; have := s2.h_lt; omega
  have f1' : w1 * max h1 h2 < 2 ^ 64 := lt_of_le_of_lt (Nat.mul_le_mul_right _ (by omega)) hf
  have f2' : w2 * max h1 h2 < 2 ^ 64 := lt_of_le_of_lt (Nat.mul_le_mul_right _ (by omega)) hf
  obtain ⟨r1, e1, t1, -⟩ := C43_resize (⟨0, 0, 0⟩ : RGB) s1 hw1 hh1 w1 (max h1 h2) s1.w_lt hb f1'
  obtain ⟨r2, e2, t2, -⟩ := C43_resize (⟨0, 0, 0⟩ : RGB) s2 hw2 hh2 w2 (max h1 h2) s2.w_lt hb f2'
  obtain ⟨c, e3, t3⟩ := concatH2_shows (⟨0, 0, 0⟩ : RGB) t1 t2 hw hf
  refine ⟨c, ?_, t3.congr fun x y hx hy => ?_⟩
  · unfold matchCanvas
    rw [s1.height, s2.height, s1.width, s2.width]
    dsimp only
    rw [C112_rgb_violation s1 hw1 hh1 w1 (max h1 h2) hw1 hm s1.w_lt hb f1', e1, Res.ok_bind,
      C112_rgb_violation s2 hw2 hh2 w2 (max h1 h2) hw2 hm s2.w_lt hb f2', e2, Res.ok_bind, e3, Res.ok_bind, t1.width]
  · unfold sideBySide
    rw [Nat.mul_div_cancel _ hw1, Nat.mul_div_cancel _ hw2]

/-- All images, key points (inside the images or not), matches that refer to key points, colours and orders of the
parallel loops: the result has the two images side by side, the lower one stretched to the height of the other;
every pixel is as in that picture or has the colour of a match on whose mark it lies; and for every match both points
(that of image 2 moved right by the width of image 1) and the discs around them, when on the canvas and, for the
discs, not near its left or top border, have its colour or that of a later match that covers them. Missing: marks at
the places where key points of the lower image appear. -/
theorem C131_draw_partial {img1 img2 : Image RGB} {w1 h1 w2 h2 : Nat} {f1 f2 : Nat → Nat → RGB}
    (s1 : img1.Shows w1 h1 f1) (s2 : img2.Shows w2 h2 f2) (hw1 : 0 < w1) (hh1 : 0 < h1) (hw2 : 0 < w2) (hh2 : 0 < h2)
    (bw : w1 < 2 ^ 60) (hw : w1 + w2 < 2 ^ 64) (hf : (w1 + w2) * max h1 h2 < 2 ^ 64) {kp1 kp2 : List Pt}
    (b1 : ∀ p ∈ kp1, p.1 < 2 ^ 60 ∧ p.2 < 2 ^ 60) (b2 : ∀ p ∈ kp2, p.1 < 2 ^ 60 ∧ p.2 < 2 ^ 60)
    {ms : List (Nat × Nat)} (hr : InRange kp1 kp2 ms) (colour : Nat → RGB)
    {sched : List (Nat × Nat) → List (Nat × Nat)} (hs : ∀ l, (sched l).Perm l) {fuel : Nat}
    (hfuel : ∀ p1 ∈ kp1, ∀ p2 ∈ kp2,
      max (((p2.1 + w1 : Nat) : Int) - p1.1).natAbs ((p2.2 : Int) - p1.2).natAbs + 1 ≤ fuel) :
    ∃ out g, drawMatches sched fuel colour img1 img2 kp1 kp2 ms = some (.ok out) ∧
      out.Shows (w1 + w2) (max h1 h2) g ∧
      ∀ x y, x < w1 + w2 → y < max h1 h2 →
        (g x y = sideBySide w1 h1 h2 (max h1 h2) f1 f2 x y ∨ ∃ j m, ms[j]? = some m ∧ g x y = colour j ∧
          OnMark (matchPts kp1 kp2 m).1 (moved w1 (matchPts kp1 kp2 m).2) x y) ∧
        ∀ j m, ms[j]? = some m → MustMark (matchPts kp1 kp2 m).1 (moved w1 (matchPts kp1 kp2 m).2) x y →
          ∃ i m', j ≤ i ∧ ms[i]? = some m' ∧ g x y = colour i ∧
            OnMark (matchPts kp1 kp2 m').1 (moved w1 (matchPts kp1 kp2 m').2) x y := by
  obtain ⟨c, e, sc⟩ := matchCanvas_ok s1 s2 hw1 hh1 hw2 hh2 hw hf
  obtain ⟨out, g, eo, so, hg⟩ := drawMatchesGo_ok b1 b2 bw hfuel colour hs ms hr 0 sc
  refine ⟨out, g, ?_, so, fun x y hx hy => ?_⟩
  · unfold drawMatches
    rw [e]
    exact eo
  · simpa only [Nat.zero_add] using hg x y hx hy

example := C131_draw_partial (ofSizes_shows (⟨0, 0, 0⟩ : RGB) (w := 30) (h := 20) (by omega) (by omega) (by omega))
  (ofSizes_shows (⟨9, 9, 9⟩ : RGB) (w := 40) (h := 25) (by omega) (by omega) (by omega)) (by decide) (by decide) (by decide)
  (by decide) (by decide) (by decide) (by decide) (kp1 := [(1, 2), (25, 10)]) (kp2 := [(4, 9), (30, 30)]) (by decide)
  (by decide) (ms := [(0, 1), (1, 0)]) (by unfold InRange; decide) (fun k => ⟨BitVec.ofNat 8 (7 * k), 0, 0⟩)
  (sched := List.reverse) (fun l => l.reverse_perm) (fuel := 100) (by decide)

/-- For images of one height: the pixels of image 1, then those of image 2, outside the marks. -/
theorem C131_same_height (w1 h : Nat) {α : Type} (f1 f2 : Nat → Nat → α) (x y : Nat) (hy : y < h) :
    sideBySide w1 h h h f1 f2 x y = if x < w1 then f1 x y else f2 (x - w1) y := by
  unfold sideBySide
  rw [Nat.mul_div_cancel _ (by omega)]

example := C131_same_height 3 2 (fun x y => x + y) (fun x y => 10 * x + y) 4 1 (by decide)

/-- The property fails for every key point of a lower image 2 that is not in its first row: the place that is marked
shows a higher row of the image. (For a lower image 1 it is the same.) -/
theorem C131_height_violation {h1 h2 : Nat} (hh : h2 < h1) {α : Type} (w1 : Nat) (f1 f2 : Nat → Nat → α) (p : Pt)
    (hp : 0 < p.2) :
    ∃ r, r < p.2 ∧
      sideBySide w1 h1 h2 (max h1 h2) f1 f2 (moved w1 p).1 (moved w1 p).2 = f2 p.1 r := by
  refine ⟨p.2 * h2 / h1, ?_, ?_⟩
  · rw [Nat.div_lt_iff_lt_mul (by omega)]
    exact Nat.mul_lt_mul_of_pos_left hh hp
  · unfold sideBySide moved
    rw [if_neg (by simp), max_eq_left hh.le]
    simp

/-- A match that refers to a missing key point is undefined behaviour: nothing is checked. -/
theorem C131_range_violation {α : Type} (sched : List (Nat × Nat) → List (Nat × Nat)) (fuel offset : Nat)
    (kp1 kp2 : List Pt) (colour : Nat → α) (k : Nat) (m : Nat × Nat) (ms : List (Nat × Nat)) (canvas : Image α)
    (hm : kp1.length ≤ m.1 ∨ kp2.length ≤ m.2) :
    drawMatchesGo sched fuel offset kp1 kp2 colour k (m :: ms) canvas = some .ub := by
  have : drawMatch sched fuel offset kp1 kp2 (colour k) m canvas = some .ub := by
    unfold drawMatch
    rcases hm with h | h
    · have : vget kp1 m.1 = .ub := by unfold vget; rw [List.getElem?_eq_none h]
      rw [this]
    · have : vget kp2 m.2 = .ub := by unfold vget; rw [List.getElem?_eq_none h]
      rw [this]
      cases vget kp1 m.1 <;> rfl
  rw [drawMatchesGo, this]

/-- The hypotheses are met: two images of different heights, key points and matches of the earlier example. -/
example : InRange ptsA ptsB msA ∧ (∀ p ∈ ptsA, p.1 < 2 ^ 60 ∧ p.2 < 2 ^ 60) ∧ (∀ p ∈ ptsB, p.1 < 2 ^ 60 ∧ p.2 < 2 ^ 60) ∧
    (∀ p1 ∈ ptsA, ∀ p2 ∈ ptsB,
      max (((p2.1 + 30 : Nat) : Int) - p1.1).natAbs ((p2.2 : Int) - p1.2).natAbs + 1 ≤ 100) ∧
    (Image.ofSizes (⟨0, 0, 0⟩ : RGB) [30, 20]).Shows 30 20 (fun _ _ => ⟨0, 0, 0⟩) ∧
    (Image.ofSizes (⟨9, 9, 9⟩ : RGB) [40, 25]).Shows 40 25 (fun _ _ => ⟨9, 9, 9⟩) := by
  refine ⟨by unfold InRange; decide, by decide, by decide, by decide,
    ofSizes_shows _ (by omega) (by omega) (by omega), ofSizes_shows _ (by omega) (by omega) (by omega)⟩

/-- Drawing runs: one match on a small canvas. -/
example : drawMatchesGo id 20 3 [(0, 0)] [(2, 1)] (fun k => k + 7) 0 [(0, 0)] (Image.ofSizes 0 [6, 2]) =
    some (.ok ⟨[6, 2], [7, 7, 7, 0, 0, 0, 0, 0, 0, 7, 7, 7]⟩) := by decide +kernel

theorem exampleFinder_valid : exampleFinder.Valid := by
  refine ⟨by norm_num [exampleFinder], by norm_num [exampleFinder], fun l => .refl l, fun l => l.reverse_perm, ?_⟩
  intro n ds hds d hd
  simp only [exampleFinder] at hds
  split at hds
  · simp at hds
  · have : d ≤ 4 := by
      rcases List.mem_cons.1 hds with rfl | h
      · revert d; decide
      · rw [List.mem_singleton.1 h] at hd; revert d; decide
    omega

example : ∃ R, findStitchHomography exampleFinder (picture 30 20 fun x y => ⟨BitVec.ofNat 8 x, BitVec.ofNat 8 y, 3⟩)
    (picture 40 25 fun x y => ⟨BitVec.ofNat 8 (x * y), 7, 9⟩) = .ok R := by
  obtain ⟨v1, -, sv1⟩ := C130_brightness (picture_shows 30 20 fun x y => (⟨BitVec.ofNat 8 x, BitVec.ofNat 8 y, 3⟩ : RGB))
    (by decide) (by decide)
  obtain ⟨v2, -, sv2⟩ := C130_brightness (picture_shows 40 25 fun x y => (⟨BitVec.ofNat 8 (x * y), 7, 9⟩ : RGB))
    (by decide) (by decide)
  obtain ⟨R, -, -, -, e, -⟩ := C130_homography exampleFinder_valid (picture_shows 30 20 _) (picture_shows 40 25 _)
    (by decide) (by decide) (by decide) (by decide) (by decide) (by decide) (by decide) (by decide) sv1 sv2 rfl rfl
    (by decide) (by decide) (by decide)
  exact ⟨R, e⟩

/-- A detector that finds nothing: the stitched image is the one without sizes. -/
example (interp : Image Rgb → ℝ → ℝ → Res Rgb) :
    imstitch { exampleFinder with keypoints := fun _ => .ok [] } (fun d => decide (|d| < 1 / 1000)) interp iterYX iterYX
      (picture 30 20 fun x y => ⟨BitVec.ofNat 8 x, BitVec.ofNat 8 y, 3⟩)
      (picture 40 25 fun x y => ⟨BitVec.ofNat 8 (x * y), 7, 9⟩) = .ok ⟨[], []⟩ := by
  have hV : Finder.Valid { exampleFinder with keypoints := fun _ => .ok [] } :=
    ⟨exampleFinder_valid.1, exampleFinder_valid.2, exampleFinder_valid.3, exampleFinder_valid.4, exampleFinder_valid.5⟩
  obtain ⟨v1, -, sv1⟩ := C130_brightness (picture_shows 30 20 fun x y => (⟨BitVec.ofNat 8 x, BitVec.ofNat 8 y, 3⟩ : RGB))
    (by decide) (by decide)
  obtain ⟨v2, -, sv2⟩ := C130_brightness (picture_shows 40 25 fun x y => (⟨BitVec.ofNat 8 (x * y), 7, 9⟩ : RGB))
    (by decide) (by decide)
  obtain ⟨R, _, _, _, e, -, -, -, -, h0, -⟩ := C130_homography hV (picture_shows 30 20 _) (picture_shows 40 25 _)
    (by decide) (by decide) (by decide) (by decide) (by decide) (by decide) (by decide) (by decide) sv1 sv2
    (kp1 := []) (kp2 := []) rfl rfl (by simp) (by simp) (by decide)
  exact C130_failure (1 / 1000) (by norm_num) interp iterYX iterYX e (.inl (h0 (.inl rfl)))

end TinyDIP.Stitch
