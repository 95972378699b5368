import Verif.Props.CliSignal
import Verif.Props.Sift
import Verif.Spec.CliSift
import Mathlib.Data.List.Nodup

/-!
# Property C147: the command get_sift_potential_keypoint
-/

namespace TinyDIP.Props

open TinyDIP.Cli TinyDIP.Resample TinyDIP.Color TinyDIP.Sift

variable {F : Type}

/-! ## Building the octaves -/

/-- The difference of Gaussians as a total function. -/
noncomputable def dogOr (sigma k : ℝ) (b : Image ℝ) (s : Nat) : Image ℝ :=
  match Filter.differenceOfGaussian b (sigma * k ^ s) (sigma * k ^ (s + 1)) with
  | .ok d => d
  | _ => b

/-- The resampling function as a total function. -/
noncomputable def resOr (resample : Image ℝ → Nat → Nat → Res (Image ℝ)) (b : Image ℝ) (x y : Nat) : Image ℝ :=
  match resample b x y with
  | .ok d => d
  | _ => b

/-- `resample` halves pictures as `half` says. -/
def Halves (half : Nat → Nat → (Nat → Nat → ℝ) → Nat → Nat → ℝ) (resample : Image ℝ → Nat → Nat → Res (Image ℝ)) :
    Prop :=
  ∀ (im : Image ℝ) (w h : Nat) (f : Nat → Nat → ℝ), im.Shows w h f → 2 ≤ w → 2 ≤ h → w < 2 ^ 29 → h < 2 ^ 29 →
    ∃ out, resample im (w / 2) (h / 2) = .ok out ∧ out.Shows (w / 2) (h / 2) (half w h f)

theorem small_area {w h : Nat} (hw : w < 2 ^ 29) (hh : h < 2 ^ 29) : (4 * w + 1) * (4 * h + 1) < 2 ^ 64 :=
  lt_of_le_of_lt (Nat.mul_le_mul (show 4 * w + 1 ≤ 2 ^ 31 by omega) (show 4 * h + 1 ≤ 2 ^ 31 by omega)) (by norm_num)

theorem halves_word {word : Str} (hword : word = "bicubic".toList ∨ word = "lanczos".toList)
    {pixels : List (Nat × Nat) → List (Nat × Nat)} (hp : ∀ l, (pixels l).Perm l) :
    Halves (halved word) (resampleBy pixels word) := by
  intro im w h f s hw hh hw' hh'
  have harea : w / 2 * (h / 2) < 2 ^ 64 :=
    lt_of_le_of_lt (Nat.mul_le_mul (show w / 2 ≤ 2 ^ 29 by omega) (show h / 2 ≤ 2 ^ 29 by omega)) (by norm_num)
  unfold resampleBy halved
  rw [← dblMax_eq]
  rcases hword with rfl | rfl
  · rw [if_neg (by decide), if_pos rfl, if_neg (by decide)]
    exact C112_resize_partial s (by omega) (by omega) _ _ (by omega) (by omega) harea _ _
      (by have := dblMax_pos; linarith) _ (hp _)
  · rw [if_pos rfl, if_pos rfl]
    exact C113_resample .real 0 s (by omega) (by omega) _ _ (by omega) (by omega) harea dblEps_pos dblEps_le
      (a := 3) (by omega) (by omega) (by omega) _ (hp _)

theorem octave_dogOr {im : Image ℝ} {w h : Nat} {f : Nat → Nat → ℝ} (s : im.Shows w h f) {sigma k : ℝ}
    (hs : 0 ≤ sigma) (hk : 0 ≤ k) {levels : Nat} (hl' : levels ≤ 2 ^ 31)
    (hfit : ∀ i < levels, Filter.WindowFits w h (sigma * k ^ i))
    (hw : w < 2 ^ 29) (hh : h < 2 ^ 29) {order : List Nat} (ho : order.Perm (List.range (levels - 1))) :
    octave order im levels sigma k = .ok (generateOctave (dogOr sigma k) im levels) := by
  unfold octave generateOctave
  by_cases h2 : levels < 2
  · rw [if_pos h2, if_pos h2]
  · rw [if_neg h2, if_neg h2, if_neg (by omega)]
    refine loop_slots (fun i => Filter.differenceOfGaussian im (sigma * k ^ i) (sigma * k ^ (i + 1)))
      (dogOr sigma k im) (levels - 1) order ho (fun i hi => ?_) _ (by simp)
    obtain ⟨d, e, -⟩ := dog_shows s (mul_nonneg hs (pow_nonneg hk i)) (mul_nonneg hs (pow_nonneg hk (i + 1)))
      (hfit i (by omega)) (hfit (i + 1) (by omega)) (by omega) (by omega) (small_area hw hh)
    unfold dogOr
    rw [e]

theorem dogOr_shows {im : Image ℝ} {w h : Nat} {f : Nat → Nat → ℝ} (s : im.Shows w h f) {sigma k : ℝ}
    (hs : 0 ≤ sigma) (hk : 0 ≤ k) {i : Nat} (h1 : Filter.WindowFits w h (sigma * k ^ i))
    (h2 : Filter.WindowFits w h (sigma * k ^ (i + 1))) (hw : w < 2 ^ 29) (hh : h < 2 ^ 29) :
    (dogOr sigma k im i).Shows w h (fun x y =>
      Filter.smoothed w h f (sigma * k ^ i) x y - Filter.smoothed w h f (sigma * k ^ (i + 1)) x y) := by
  obtain ⟨d, e, sd⟩ := dog_shows s (mul_nonneg hs (pow_nonneg hk i)) (mul_nonneg hs (pow_nonneg hk (i + 1)))
      h1 h2 (by omega) (by omega) (small_area hw hh)
  unfold dogOr
  rw [e]
  exact sd

theorem half_div (w o : Nat) : w / 2 / 2 ^ o = w / 2 ^ (o + 1) := by
  rw [Nat.div_div_eq_div_mul, pow_succ']

theorem build_done {half : Nat → Nat → (Nat → Nat → ℝ) → Nat → Nat → ℝ}
    {resample : Image ℝ → Nat → Nat → Res (Image ℝ)} (hres : Halves half resample)
    {order : Nat → List Nat → List Nat} (ho : ∀ n l, (order n l).Perm l) {sigma k : ℝ} (hs : 0 ≤ sigma)
    (hk : 0 ≤ k) {levels : Nat} (hl' : levels ≤ 2 ^ 31) :
    ∀ (n : Nat) (im : Image ℝ) (w h : Nat) (f : Nat → Nat → ℝ), im.Shows w h f → w < 2 ^ 29 → h < 2 ^ 29 →
      (∀ o < n, 20 ≤ w / 2 ^ o → 20 ≤ h / 2 ^ o → ∀ i < levels,
        Filter.WindowFits (w / 2 ^ o) (h / 2 ^ o) (sigma * k ^ i)) →
      buildOctaves order resample levels sigma k n im =
        .done (octavesFrom (dogOr sigma k) (resOr resample) levels n im) := by
  intro n
  induction n with
  | zero => intros; rfl
  | succ n ih =>
    intro im w h f s hw hh hfit
    unfold buildOctaves octavesFrom
    rw [s.width, s.height]
    by_cases hsm : w < 20 ∨ h < 20
    · rw [if_pos hsm, if_pos hsm]
    · rw [if_neg hsm, if_neg hsm]
      rw [octave_dogOr s hs hk hl' (by simpa using hfit 0 (by omega) (by simp; omega) (by simp; omega)) hw hh (ho _ _)]
      obtain ⟨out, e, so⟩ := hres im w h f s (by omega) (by omega) hw hh
      have er : resOr resample im (w / 2) (h / 2) = out := by unfold resOr; rw [e]
      dsimp only
      rw [e, er]
      dsimp only
      rw [ih out (w / 2) (h / 2) _ so (by omega) (by omega) (fun o ho' h1 h2 => ?_)]
      rw [half_div] at h1 h2 ⊢
      rw [half_div]
      exact hfit (o + 1) (by omega) h1 h2

theorem base_shows {word : Str} {resample : Image ℝ → Nat → Nat → Res (Image ℝ)}
    (hres : Halves (halved word) resample) :
    ∀ (o : Nat) (im : Image ℝ) (w h : Nat) (f : Nat → Nat → ℝ), im.Shows w h f → w < 2 ^ 29 → h < 2 ^ 29 →
      (∀ o' < o, 20 ≤ w / 2 ^ o' ∧ 20 ≤ h / 2 ^ o') →
      (baseOf (resOr resample) o im).Shows (w / 2 ^ o) (h / 2 ^ o) (pyramid word w h f o) := by
  intro o
  induction o with
  | zero => intro im w h f s _ _ _; simpa [baseOf, pyramid] using s
  | succ o ih =>
    intro im w h f s hw hh hbig
    have h0 := hbig 0 (by omega)
    simp only [pow_zero, Nat.div_one] at h0
    obtain ⟨out, e, so⟩ := hres im w h f s (by omega) (by omega) hw hh
    unfold baseOf pyramid
    rw [s.width, s.height, ← half_div, ← half_div]
    have er : resOr resample im (w / 2) (h / 2) = out := by unfold resOr; rw [e]
    rw [er]
    refine ih out (w / 2) (h / 2) _ so (by omega) (by omega) fun o' ho' => ?_
    rw [half_div, half_div]
    exact hbig (o' + 1) (by omega)

theorem build_terminated {half : Nat → Nat → (Nat → Nat → ℝ) → Nat → Nat → ℝ}
    {resample : Image ℝ → Nat → Nat → Res (Image ℝ)} (hres : Halves half resample)
    {order : Nat → List Nat → List Nat} (ho : ∀ n l, (order n l).Perm l) {sigma k : ℝ} (hs : 0 ≤ sigma)
    (hk : 0 ≤ k) {levels : Nat} (hl : 2 ≤ levels) (hl' : levels ≤ 2 ^ 31)
    (hsz : ∀ i < levels, Filter.autoSize (sigma * k ^ i) < 2 ^ 29) :
    ∀ (n : Nat) (im : Image ℝ) (w h : Nat) (f : Nat → Nat → ℝ), im.Shows w h f → w < 2 ^ 29 → h < 2 ^ 29 →
      (∃ o < n, 20 ≤ w / 2 ^ o ∧ 20 ≤ h / 2 ^ o ∧ ∃ i < levels,
        ¬ Filter.WindowFits (w / 2 ^ o) (h / 2 ^ o) (sigma * k ^ i)) →
      buildOctaves order resample levels sigma k n im = .terminated := by
  intro n
  induction n with
  | zero => rintro im w h f s hw hh ⟨o, ho, -⟩; omega
  | succ n ih =>
    rintro im w h f s hw hh ⟨o, ho', h1, h2, hbad⟩
    have hw20 : 20 ≤ w := h1.trans (Nat.div_le_self _ _)
    have hh20 : 20 ≤ h := h2.trans (Nat.div_le_self _ _)
    unfold buildOctaves
    rw [s.width, s.height, if_neg (by omega)]
    by_cases hfit : ∀ i < levels, Filter.WindowFits w h (sigma * k ^ i)
    · rw [octave_dogOr s hs hk hl' hfit hw hh (ho _ _)]
      obtain ⟨out, e, so⟩ := hres im w h f s (by omega) (by omega) hw hh
      dsimp only
      rw [e]
      dsimp only
      cases o with
      | zero =>
        obtain ⟨i, hi, hni⟩ := hbad
        simp only [pow_zero, Nat.div_one] at hni
        exact (hni (hfit i hi)).elim
      | succ o =>
        rw [← half_div, ← half_div] at hbad
        rw [← half_div] at h1 h2
        rw [ih out (w / 2) (h / 2) _ so (by omega) (by omega) ⟨o, by omega, h1, h2, hbad⟩]
    · push Not at hfit
      rw [octave_throws s hs hk hl hl' hfit hsz hw hh (ho _ _)]

/-! ## Key points -/

theorem flatMap_ite {α β : Type} (P : α → Prop) [DecidablePred P] (g : α → β) (l : List α) :
    (l.flatMap fun p => if P p then [g p] else []) = (l.filter P).map g := by
  induction l with
  | nil => rfl
  | cons a l ih =>
    rw [List.flatMap_cons, ih]
    by_cases h : P a <;> simp [h]

theorem interior_nodup (w h : Nat) : (Sift.interior w h).Nodup := by
  unfold Sift.interior
  rw [List.nodup_flatMap]
  refine ⟨fun y _ => List.Nodup.map (fun a b hab => by simpa using congrArg Prod.fst hab) List.nodup_range', ?_⟩
  refine (List.nodup_range' (s := 1) (n := h - 1)).imp fun {a b} hab p hp hq => ?_
  obtain ⟨x, -, rfl⟩ := List.mem_map.1 hp
  obtain ⟨x', -, hx⟩ := List.mem_map.1 hq
  exact hab (by simpa using (congrArg Prod.snd hx).symm)

open Classical in
/-- The extrema of the octaves, in the order of the search. -/
noncomputable def extremaList (G : Nat → Nat → Nat → Nat → ℝ) (w h count levels : Nat) (contrast : ℝ) (sched : Sched) :
    List (Nat × Nat × Nat × Nat) :=
  (sched.octaves (List.range count)).flatMap fun o =>
    (sched.scales (List.range (levels - 3))).flatMap fun s =>
      ((sched.inspect (Sift.interior (w / 2 ^ o - 1) (h / 2 ^ o - 1))).filter fun p =>
        StrictExtremum (fun i : Fin 3 => G o (s + i)) p.1 p.2 contrast).map fun p => (o, s, p.1, p.2)

/-- The key point of an extremum. -/
noncomputable def keyOf (G : Nat → Nat → Nat → Nat → ℝ) (q : Nat × Nat × Nat × Nat) : KeyPoint ℝ :=
  (q.1, q.2.1, (refinedAt (G q.1 (q.2.1 + 1)) q.2.2.1 q.2.2.2).1, (refinedAt (G q.1 (q.2.1 + 1)) q.2.2.1 q.2.2.2).2)

theorem octavePoints_eq (G : Nat → Nat → Nat → Nat → ℝ) (w h count levels : Nat) (contrast edge : ℝ) (sched : Sched) :
    (sched.octaves (List.range count)).flatMap (octavePoints G w h levels contrast edge sched.scales sched.inspect) =
      (extremaList G w h count levels contrast sched).map (keyOf G) := by
  classical
  have hst : ∀ o s, stack (G o s) (G o (s + 1)) (G o (s + 2)) = fun i : Fin 3 => G o (s + i) := by
    intro o s; funext i; match i with | 0 => rfl | 1 => rfl | 2 => rfl
  unfold extremaList octavePoints
  simp only [List.map_flatMap, List.map_map]
  congr 1
  funext o
  congr 1
  funext s
  rw [← flatMap_ite]
  congr 1
  funext p
  unfold pointsAt
  rw [hst]
  simp [keyOf]

theorem extremaList_nodup (G : Nat → Nat → Nat → Nat → ℝ) (w h count levels : Nat) (contrast : ℝ) {sched : Sched}
    (hs : sched.Fair) : (extremaList G w h count levels contrast sched).Nodup := by
  classical
  unfold extremaList
  rw [List.nodup_flatMap]
  refine ⟨fun o _ => ?_, ?_⟩
  · rw [List.nodup_flatMap]
    refine ⟨fun s _ => ?_, ?_⟩
    · refine List.Nodup.map (fun a b hab => ?_) (((hs.inspect _).nodup_iff.2 (interior_nodup _ _)).filter _)
      simp only [Prod.mk.injEq, true_and] at hab
      exact Prod.ext hab.1 hab.2
    · refine ((hs.scales _).nodup_iff.2 List.nodup_range).imp fun {a b} hab p hp hq => ?_
      obtain ⟨x, -, rfl⟩ := List.mem_map.1 hp
      obtain ⟨x', -, hx⟩ := List.mem_map.1 hq
      simp only [Prod.mk.injEq] at hx
      exact hab hx.2.1.symm
  · refine ((hs.octaves _).nodup_iff.2 List.nodup_range).imp fun {a b} hab p hp hq => ?_
    obtain ⟨s, -, hp⟩ := List.mem_flatMap.1 hp
    obtain ⟨s', -, hq⟩ := List.mem_flatMap.1 hq
    obtain ⟨x, -, rfl⟩ := List.mem_map.1 hp
    obtain ⟨x', -, hx⟩ := List.mem_map.1 hq
    simp only [Prod.mk.injEq] at hx
    exact hab hx.1.symm

theorem extremaList_sorted (G : Nat → Nat → Nat → Nat → ℝ) (w h count levels : Nat) (contrast : ℝ) {sched : Sched}
    (ho : sched.octaves = id) (hs : sched.scales = id) :
    (extremaList G w h count levels contrast sched).Pairwise fun a b => a.1 < b.1 ∨ a.1 = b.1 ∧ a.2.1 ≤ b.2.1 := by
  classical
  unfold extremaList
  rw [ho, hs, List.pairwise_flatMap]
  refine ⟨fun o _ => ?_, ?_⟩
  · rw [List.pairwise_flatMap]
    refine ⟨fun s _ => ?_, ?_⟩
    · rw [List.pairwise_map]
      exact List.pairwise_of_forall fun _ _ => .inr ⟨rfl, le_refl _⟩
    · refine List.pairwise_lt_range.imp fun {a b} hab p hp q hq => ?_
      obtain ⟨x, -, rfl⟩ := List.mem_map.1 hp
      obtain ⟨x', -, rfl⟩ := List.mem_map.1 hq
      exact .inr ⟨rfl, hab.le⟩
  · refine List.pairwise_lt_range.imp fun {a b} hab p hp q hq => ?_
    obtain ⟨s, -, hp⟩ := List.mem_flatMap.1 hp
    obtain ⟨s', -, hq⟩ := List.mem_flatMap.1 hq
    obtain ⟨x, -, rfl⟩ := List.mem_map.1 hp
    obtain ⟨x', -, rfl⟩ := List.mem_map.1 hq
    exact .inl hab

theorem mem_extremaList (G : Nat → Nat → Nat → Nat → ℝ) {w h count levels : Nat} (contrast : ℝ) {sched : Sched}
    (hs : sched.Fair) (hbig : ∀ o < count, 20 ≤ w / 2 ^ o ∧ 20 ≤ h / 2 ^ o) (o s x y : Nat) :
    (o, s, x, y) ∈ extremaList G w h count levels contrast sched ↔
      o < count ∧ s + 3 < levels ∧ Inner (w / 2 ^ o) (h / 2 ^ o) x y ∧
        StrictExtremum (fun i : Fin 3 => G o (s + i)) x y contrast := by
  classical
  unfold extremaList
  simp only [List.mem_flatMap, List.mem_map, List.mem_filter, decide_eq_true_eq, Prod.mk.injEq]
  constructor
  · rintro ⟨o', ho, s', hs', p, ⟨hp, he⟩, rfl, rfl, rfl, rfl⟩
    have ho := List.mem_range.1 ((hs.octaves _).mem_iff.1 ho)
    have hs' := List.mem_range.1 ((hs.scales _).mem_iff.1 hs')
    have hb := hbig _ ho
    exact ⟨ho, by omega, (mem_interior (by omega) (by omega)).1 ((hs.inspect _).mem_iff.1 hp), he⟩
  · rintro ⟨ho, hs', hi, he⟩
    have hb := hbig _ ho
    exact ⟨o, (hs.octaves _).mem_iff.2 (List.mem_range.2 ho), s,
      (hs.scales _).mem_iff.2 (List.mem_range.2 (by omega)), (x, y),
      ⟨(hs.inspect _).mem_iff.2 ((mem_interior (by omega) (by omega)).2 hi), he⟩, rfl, rfl, rfl, rfl⟩

theorem toSize_floor {v : ℝ} {a b : Nat} (ha : 0 < a) (hb : b < 2 ^ 64) (h0 : 0 ≤ v) (h1 : v < a) (hb0 : 0 < b) :
    Sift.toSize (v / (a : ℝ) * (b : ℝ)) = .ok ⌊v / (a : ℝ) * (b : ℝ)⌋₊ := by
  have ha' : (0 : ℝ) < a := by exact_mod_cast ha
  have hb' : (0 : ℝ) < b := by exact_mod_cast hb0
  have hlt : v / (a : ℝ) * (b : ℝ) < b := by
    have : v / (a : ℝ) < 1 := (div_lt_one ha').2 h1
    nlinarith
  have hge : 0 ≤ v / (a : ℝ) * (b : ℝ) := by positivity
  unfold Sift.toSize
  rw [if_pos ⟨by linarith, lt_trans hlt (by exact_mod_cast hb)⟩, Int.floor_toNat]

/-- The whole search on a picture of real numbers. -/
theorem keypoints_done {sched : Sched} (hf : sched.Fair) {word : Str}
    (hword : word = "bicubic".toList ∨ word = "lanczos".toList) {im : Image ℝ} {w h : Nat} {f : Nat → Nat → ℝ}
    (s : im.Shows w h f) {count levels : Nat} {sigma k contrast edge : ℝ} (hs : 0 ≤ sigma) (hk : 0 ≤ k)
    (hl : 3 ≤ levels) (hl' : levels ≤ 2 ^ 31) (hw : w < 2 ^ 29) (hh : h < 2 ^ 29)
    (hbig : ∀ o < count, 20 ≤ w / 2 ^ o ∧ 20 ≤ h / 2 ^ o)
    (hfit : ∀ o < count, ∀ i < levels, Filter.WindowFits (w / 2 ^ o) (h / 2 ^ o) (sigma * k ^ i))
    (hin : ∀ o s x y, Candidate word w h f sigma k count levels contrast o s x y →
      let u := refinedAt (levelOf word w h f sigma k o (s + 1)) x y
      0 ≤ u.1 ∧ u.1 < (w / 2 ^ o : Nat) ∧ 0 ≤ u.2 ∧ u.2 < (h / 2 ^ o : Nat)) :
    ∃ ks : List (Nat × Nat × Nat × Nat), ks.Nodup ∧
      (∀ o s x y, (o, s, x, y) ∈ ks ↔ Candidate word w h f sigma k count levels contrast o s x y) ∧
      (sched.octaves = id → sched.scales = id → ks.Pairwise fun a b => a.1 < b.1 ∨ a.1 = b.1 ∧ a.2.1 ≤ b.2.1) ∧
      potentialKeypoints sched word im count levels sigma k contrast edge =
        .done (ks.map fun q => wholePicture w h q.1
          (refinedAt (levelOf word w h f sigma k q.1 (q.2.1 + 1)) q.2.2.1 q.2.2.2)) := by
  have hres := halves_word hword hf.pixels
  set G := levelOf word w h f sigma k with hG
  have hmem : ∀ o s x y, (o, s, x, y) ∈ extremaList G w h count levels contrast sched ↔
      Candidate word w h f sigma k count levels contrast o s x y := fun o s x y => by
    rw [mem_extremaList G contrast hf hbig]
    exact ⟨fun ⟨a, b, c, d⟩ => ⟨a, b, c, d⟩, fun ⟨a, b, c, d⟩ => ⟨a, b, c, d⟩⟩
  refine ⟨_, extremaList_nodup G w h count levels contrast hf, hmem,
    extremaList_sorted G w h count levels contrast, ?_⟩
  unfold potentialKeypoints
  rw [if_neg (by simp [s.dim]), build_done hres hf.levels hs hk hl' count im w h f s hw hh
    (fun o ho _ _ => hfit o ho)]
  dsimp only
  have hbase : ∀ o < count, (baseOf (resOr (resampleBy sched.pixels word)) o im).Shows (w / 2 ^ o) (h / 2 ^ o)
      (pyramid word w h f o) := fun o ho => base_shows hres o im w h f s hw hh fun o' ho' => hbig o' (by omega)
  have hdog : ∀ o < count, ∀ i < levels - 1,
      (dogOr sigma k (baseOf (resOr (resampleBy sched.pixels word)) o im) i).Shows (w / 2 ^ o) (h / 2 ^ o) (G o i) := by
    intro o ho i hi
    have a : w / 2 ^ o ≤ w := Nat.div_le_self _ _
    have b : h / 2 ^ o ≤ h := Nat.div_le_self _ _
    exact dogOr_shows (hbase o ho) hs hk (hfit o ho i (by omega)) (hfit o ho (i + 1) (by omega)) (by omega) (by omega)
  rw [searchOctaves_ok (dogOr sigma k) (resOr (resampleBy sched.pixels word)) im G hl (by omega) (by omega) (by omega)
    (fun o ho => ⟨(hbase o ho).width, (hbase o ho).height⟩) hdog hbig contrast edge hf.octaves hf.scales hf.inspect,
    octavePoints_eq, Res.ok_bind]
  have hocts := octavesFrom_len (dogOr sigma k) (resOr (resampleBy sched.pixels word)) levels count count im (le_refl _)
    (fun o ho => by rw [(hbase o ho).width, (hbase o ho).height]; exact hbig o ho) (by omega)
  unfold mapKeypoints
  rw [Sift.loop_collectL _ fun kp : KeyPoint ℝ => [wholePicture w h kp.1 (kp.2.2.1, kp.2.2.2)]]
  · simp only [Act.ofRes, List.nil_append, List.flatMap_map, Act.done.injEq]
    rw [List.map_eq_flatMap]
    rfl
  · intro kp hkp out
    obtain ⟨⟨o, i, x, y⟩, hq, rfl⟩ := List.mem_map.1 hkp
    have hc := (hmem o i x y).1 hq
    obtain ⟨a1, a2, a3, a4⟩ := hin o i x y hc
    have hb := hbig o hc.octave
    have e1 : vget (octavesFrom (dogOr sigma k) (resOr (resampleBy sched.pixels word)) levels count im) o =
        .ok (generateOctave (dogOr sigma k) (baseOf (resOr (resampleBy sched.pixels word)) o im) levels) := by
      unfold vget; rw [hocts.2 o hc.octave]
    simp only [keyOf]
    rw [e1, Res.ok_bind, generateOctave_get _ _ hl (by omega), Res.ok_bind]
    have sd := hdog o hc.octave 0 (by omega)
    rw [sd.width, sd.height, s.width, s.height]
    unfold mappingPoint
    have w0 : 20 ≤ w := hb.1.trans (Nat.div_le_self _ _)
    have h0 : 20 ≤ h := hb.2.trans (Nat.div_le_self _ _)
    dsimp only
    rw [toSize_floor (by omega) (by omega) a1 a2 (by omega), Res.ok_bind,
      toSize_floor (by omega) (by omega) a3 a4 (by omega)]
    rfl

/-! ## The command -/

theorem fair_under {sched : Sched} (h : sched.Fair) (policy : Str) : (sched.under policy).Fair := by
  have hid : ({ sched with octaves := id, scales := id } : Sched).Fair :=
    ⟨h.levels, h.pixels, fun l => .refl l, fun l => .refl l, h.inspect⟩
  unfold Sched.under dispatchPolicy
  split_ifs <;> first | exact h | exact hid

theorem isPolicy_iff (a : Str) :
    isPolicy a = true ↔ a ∈ ["seq".toList, "par".toList, "unseq".toList, "par_unseq".toList] := by
  simp [isPolicy, sSeq, sPar, sUnseq, sParUnseq]
  tauto

theorem under_oneByOne {sched : Sched} {args : List Str} (h : OneByOne args) :
    (sched.under (lastPolicy args)).octaves = id ∧ (sched.under (lastPolicy args)).scales = id := by
  have key : lastPolicy args = [] ∨ lastPolicy args = "seq".toList := by
    unfold lastPolicy
    rcases h with h | ⟨b, a, rfl, h⟩
    · left
      rw [List.filter_eq_nil_iff.2 fun x hx => by rw [isPolicy_iff]; exact h x hx]
      rfl
    · right
      rw [List.filter_append, List.filter_cons_of_pos (by decide +kernel),
        List.filter_eq_nil_iff (l := a) |>.2 fun x hx => by rw [isPolicy_iff]; exact h x hx, List.getLast?_concat]
      rfl
  rcases key with e | e <;> rw [e] <;> exact ⟨rfl, rfl⟩

theorem given_size {params : List Str} {i dflt v : Nat}
    (h : Given params i (fun a n => n < 2 ^ 64 ∧ a = Nat.toDigits 10 n) dflt v) :
    optArg parseSize dflt params i = some v := by
  unfold Given at h
  unfold optArg
  cases e : params[i]? with
  | none => rw [e] at h; exact congrArg some h.symm
  | some a => rw [e] at h; exact h.2 ▸ parseSize_toStr h.1

theorem given_real {dbl : Str → Option ℝ} {params : List Str} {i : Nat} {dflt v : ℝ}
    (h : Given params i (Reads dbl) dflt v) : optArg (fun a => dbl (sanitize a)) dflt params i = some v := by
  unfold Given at h
  unfold optArg
  cases e : params[i]? with
  | none => rw [e] at h; exact congrArg some h.symm
  | some a => rw [e] at h; exact reads_clean h

theorem given_word {params : List Str} {i : Nat} {dflt v : Str} (h : Given params i (fun a w => a = w) dflt v) :
    optArg some dflt params i = some v := by
  unfold Given at h
  unfold optArg
  cases e : params[i]? with
  | none => rw [e] at h; exact congrArg some h.symm
  | some a => rw [e] at h; exact congrArg some h

theorem asksSift_read {dbl : Str → Option ℝ} {params : List Str} {count levels : Nat} {sigma k contrast edge : ℝ}
    {word : Str} (h : AsksSift dbl params count levels sigma k contrast edge word) :
    siftArgs dbl params = some ⟨count, levels, sigma, k, contrast, edge, word⟩ := by
  obtain ⟨h0, h1, h2, h3, h4, h5, h6⟩ := h
  unfold siftArgs
  rw [given_size h0, given_size h1, given_real h2, given_real h3, given_real h4, given_real h5, given_word h6]
  rfl

theorem siftCmd_act (io : FileIO PayR F) (dbl : Str → Option ℝ) (sched : Sched)
    (ext : Val PayR → Act (Option (Val PayR))) (wd : World PayR F) (args : List Str) (v d : Str) (params : List Str)
    (ha : plainWords args = ('$' :: v) :: ('$' :: d) :: params) (a : SiftArgs) (hp : siftArgs dbl params = some a)
    (x : Val PayR) (hv : wd.ws.retrieveAny v = some x) (hx : isMasterImage x.ty = true) :
    siftCmd io dbl sched ext wd args =
      match siftVal (sched.under (lastPolicy args)) a ext x with
      | .ub => .ub
      | .threw => raise wd
      | .terminated => .ok ⟨wd, .terminated, none⟩
      | .done none => quiet wd
      | .done (some r) => .ok ⟨{ wd with ws := wd.ws.put d r }, .returned, none⟩ := by
  unfold siftCmd
  rw [argsFilter_eq, ha]
  dsimp only
  rw [if_pos (show isVar ('$' :: d) = true from rfl), hp]
  dsimp only
  rw [loadVar io isMasterImage wd v x hv hx]
  rfl

theorem siftCmd_picture (io : FileIO PayR F) (dbl : Str → Option ℝ) (sched : Sched)
    (ext : Val PayR → Act (Option (Val PayR))) (wd : World PayR F) (args : List Str) (v d : Str) (params : List Str)
    (ha : plainWords args = ('$' :: v) :: ('$' :: d) :: params) {count levels : Nat} {sigma k contrast edge : ℝ}
    {word : Str} (hp : AsksSift dbl params count levels sigma k contrast edge word) {w h : Nat} {f : Nat → Nat → ℝ}
    (hx : HoldsPicture wd v w h f) (hw : 0 < w) (hh : 0 < h) :
    ∃ im : Image ℝ, im.Shows w h f ∧ siftCmd io dbl sched ext wd args =
      match potentialKeypoints (sched.under (lastPolicy args)) word im count levels sigma k contrast edge with
      | .ub => .ub
      | .threw => raise wd
      | .terminated => .ok ⟨wd, .terminated, none⟩
      | .done l => .ok ⟨{ wd with ws := wd.ws.put d (.atom tyPoints (.points l)) }, .returned, none⟩ := by
  rcases hx with ⟨im, hv, s⟩ | ⟨im, b, hv, s, hb⟩
  · refine ⟨im, s, ?_⟩
    rw [siftCmd_act io dbl sched ext wd args v d params ha _ (asksSift_read hp) _ hv rfl]
    simp only [siftVal, tyDouble]
    cases potentialKeypoints (sched.under (lastPolicy args)) word im count levels sigma k contrast edge <;> rfl
  · have sm := map_shows s real8
    refine ⟨⟨im.size, im.data.map real8⟩, sm.congr fun x y _ _ => (hb x y).symm, ?_⟩
    rw [siftCmd_act io dbl sched ext wd args v d params ha _ (asksSift_read hp) _ hv rfl]
    simp only [siftVal, tyByte, im2doubleGray, cast_byte s hw hh]
    cases potentialKeypoints (sched.under (lastPolicy args)) word ⟨im.size, im.data.map real8⟩ count levels sigma k
      contrast edge <;> rfl

/-- `get_sift_potential_keypoint $v $d [octaves [levels [sigma [k [contrast [edge [resampling]]]]]]]`, with
policy words anywhere, stores one point for every pixel of an octave's levels that is a strict extremum
among its 26 neighbours: its refined location, in pixels of the whole picture; without a policy, and with `seq`,
in the order of the octaves and within an octave of the levels. Every octave must exist, every
smoothing window must be smaller than its octave's picture, there must be at least three levels, and every
refined location must be defined and inside its octave's picture. Missing: the other cases
(`C147_small_violation`, `C147_missing_violation`, `C147_levels_violation`, `C50_location_violation`) and
iterations of the search that append at the same time (`C85_race_violation`). -/
theorem C147_keypoints_partial (io : FileIO PayR F) (dbl : Str → Option ℝ) (sched : Sched) (hs : sched.Fair)
    (ext : Val PayR → Act (Option (Val PayR))) (wd : World PayR F) (args : List Str) (v d : Str) (params : List Str)
    (ha : plainWords args = ('$' :: v) :: ('$' :: d) :: params) (count levels : Nat) (sigma k contrast edge : ℝ)
    (word : Str) (hp : AsksSift dbl params count levels sigma k contrast edge word)
    (hword : word = "bicubic".toList ∨ word = "lanczos".toList) (hs0 : 0 ≤ sigma) (hk : 0 ≤ k) (hl : 3 ≤ levels)
    (hl' : levels ≤ 2 ^ 31) (w h : Nat) (f : Nat → Nat → ℝ) (hx : HoldsPicture wd v w h f) (hw0 : 0 < w) (hh0 : 0 < h)
    (hw : w < 2 ^ 29) (hh : h < 2 ^ 29) (hbig : ∀ o < count, 20 ≤ w / 2 ^ o ∧ 20 ≤ h / 2 ^ o)
    (hfit : ∀ o < count, ∀ i < levels, Filter.WindowFits (w / 2 ^ o) (h / 2 ^ o) (sigma * k ^ i))
    (hin : ∀ o s x y, Candidate word w h f sigma k count levels contrast o s x y →
      let g := levelOf word w h f sigma k o (s + 1)
      let u := refinedAt g x y
      hessDet g x y ≠ 0 ∧ 0 ≤ u.1 ∧ u.1 < (w / 2 ^ o : Nat) ∧ 0 ≤ u.2 ∧ u.2 < (h / 2 ^ o : Nat)) :
    ∃ ks : List (Nat × Nat × Nat × Nat), ks.Nodup ∧
      (∀ o s x y, (o, s, x, y) ∈ ks ↔ Candidate word w h f sigma k count levels contrast o s x y) ∧
      (OneByOne args → ks.Pairwise fun a b => a.1 < b.1 ∨ a.1 = b.1 ∧ a.2.1 ≤ b.2.1) ∧
      Stored wd (siftCmd io dbl sched ext wd args) d (.atom tyPoints (.points (ks.map fun q =>
        wholePicture w h q.1 (refinedAt (levelOf word w h f sigma k q.1 (q.2.1 + 1)) q.2.2.1 q.2.2.2)))) := by
  obtain ⟨im, s, e⟩ := siftCmd_picture io dbl sched ext wd args v d params ha hp hx hw0 hh0
  obtain ⟨ks, hn, hm, hord, ek⟩ := keypoints_done (fair_under hs (lastPolicy args)) hword s (edge := edge) hs0 hk hl hl' hw hh hbig
    hfit fun o i x y hc => (hin o i x y hc).2
  refine ⟨ks, hn, hm, fun h1 => hord (under_oneByOne h1).1 (under_oneByOne h1).2, stored_put _ _ _ _ ?_⟩
  rw [e, ek]

theorem blur_const (sd1 sd2 : ℝ) {n1 n2 : Nat} (h1 : 0 < n1) (h2 : 0 < n2) (o1 o2 : Nat) (c1 c2 c : ℝ) (x y : Nat) :
    Filter.blur sd1 sd2 n1 n2 o1 o2 c1 c2 (fun _ _ => c) x y = c := by
  unfold Filter.blur
  have : ∀ j, ∑ i ∈ Finset.range n1, Filter.bellWeight sd2 c2 n2 j * Filter.bellWeight sd1 c1 n1 i * c =
      Filter.bellWeight sd2 c2 n2 j * c := by
    intro j
    rw [← Finset.sum_mul, ← Finset.mul_sum, Filter.bellWeight_sum _ _ h1, mul_one]
  simp only [this]
  rw [← Finset.sum_mul, Filter.bellWeight_sum _ _ h2, one_mul]

theorem smoothed_const (w h : Nat) (c sigma : ℝ) (x y : Nat) : Filter.smoothed w h (fun _ _ => c) sigma x y = c := by
  unfold Filter.smoothed
  exact blur_const _ _ (by unfold Filter.autoSize; omega) (by unfold Filter.autoSize; omega) _ _ _ _ _ _ _

/-- The hypotheses are met by a 100 × 60 picture of one colour and the arguments `par $v 1 $d` and one octave:
no pixel is an extremum and an empty list is stored. -/
example (dbl : Str → Option ℝ) : ∃ (wd : World PayR Unit) (args : List Str) (f : Nat → Nat → ℝ),
    plainWords args = [['$', 'v'], ['$', 'd'], ['1']] ∧
    AsksSift dbl [['1']] 1 5 1.6 (Real.sqrt 2) 8 12.1 "bicubic".toList ∧ HoldsPicture wd ['v'] 100 60 f ∧
    (∀ o < 1, 20 ≤ 100 / 2 ^ o ∧ 20 ≤ 60 / 2 ^ o) ∧
    (∀ o < 1, ∀ i < 5, Filter.WindowFits (100 / 2 ^ o) (60 / 2 ^ o) (1.6 * Real.sqrt 2 ^ i)) ∧
    ∀ o s x y, ¬ Candidate "bicubic".toList 100 60 f 1.6 (Real.sqrt 2) 1 5 8 o s x y := by
  refine ⟨⟨⟨[(['v'], .atom tyDouble (.real (Image.ofSizes 7 [100, 60])))]⟩, ()⟩,
    ["par".toList, ['$', 'v'], ['$', 'd'], ['1']], fun _ _ => 7, by decide +kernel,
    ⟨⟨by norm_num, by decide +kernel⟩, rfl, rfl, rfl, rfl, rfl, rfl⟩,
    .inl ⟨_, rfl, ofSizes_shows 7 (by decide) (by decide) (by decide)⟩, ?_, ?_, ?_⟩
  · intro o ho
    obtain rfl : o = 0 := by omega
    decide
  · intro o ho i hi
    obtain rfl : o = 0 := by omega
    have := default_windows i hi
    exact ⟨by simp; omega, by simp; omega⟩
  · intro o s x y hc
    obtain rfl : o = 0 := by have := hc.octave; omega
    have h := hc.extremum.1
    simp only [levelOf, pyramid, smoothed_const, sub_self, abs_zero] at h
    norm_num at h

/-- Every stored point is a pixel of the picture. -/
theorem C147_inside (word : Str) (w h : Nat) (f : Nat → Nat → ℝ) (sigma k : ℝ) (o s x y : Nat) (hw : 0 < w) (hh : 0 < h)
    (hin : let u := refinedAt (levelOf word w h f sigma k o (s + 1)) x y
      0 ≤ u.1 ∧ u.1 < (w / 2 ^ o : Nat) ∧ 0 ≤ u.2 ∧ u.2 < (h / 2 ^ o : Nat)) :
    let p := wholePicture w h o (refinedAt (levelOf word w h f sigma k o (s + 1)) x y)
    p.1 < w ∧ p.2 < h := by
  obtain ⟨h1, h2, h3, h4⟩ := hin
  have key : ∀ (u : ℝ) (a b : Nat), 0 ≤ u → u < a → 0 < b → ⌊u / a * b⌋₊ < b := by
    intro u a b hu ha hb
    have ha' : (0 : ℝ) < a := lt_of_le_of_lt hu ha
    have hb' : (0 : ℝ) < b := by exact_mod_cast hb
    rw [Nat.floor_lt (by positivity)]
    have : u / a < 1 := (div_lt_one ha').2 ha
    nlinarith
  exact ⟨key _ _ _ h1 h2 hw, key _ _ _ h3 h4 hh⟩

/-- Violation: when an octave exists (its picture is at least 20 × 20) but some smoothing window is not
smaller than its picture, the process ends. -/
theorem C147_small_violation (io : FileIO PayR F) (dbl : Str → Option ℝ) (sched : Sched) (hs : sched.Fair)
    (ext : Val PayR → Act (Option (Val PayR))) (wd : World PayR F) (args : List Str) (v d : Str) (params : List Str)
    (ha : plainWords args = ('$' :: v) :: ('$' :: d) :: params) (count levels : Nat) (sigma k contrast edge : ℝ)
    (word : Str) (hp : AsksSift dbl params count levels sigma k contrast edge word)
    (hword : word = "bicubic".toList ∨ word = "lanczos".toList) (hs0 : 0 ≤ sigma) (hk : 0 ≤ k) (hl : 2 ≤ levels)
    (hl' : levels ≤ 2 ^ 31) (hsz : ∀ i < levels, Filter.autoSize (sigma * k ^ i) < 2 ^ 29) (w h : Nat)
    (f : Nat → Nat → ℝ) (hx : HoldsPicture wd v w h f) (hw : w < 2 ^ 29) (hh : h < 2 ^ 29)
    (hbad : ∃ o < count, 20 ≤ w / 2 ^ o ∧ 20 ≤ h / 2 ^ o ∧ ∃ i < levels,
      ¬ Filter.WindowFits (w / 2 ^ o) (h / 2 ^ o) (sigma * k ^ i)) :
    siftCmd io dbl sched ext wd args = .ok ⟨wd, .terminated, none⟩ := by
  have h0 : 20 ≤ w ∧ 20 ≤ h := by
    obtain ⟨o, -, h1, h2, -⟩ := hbad
    exact ⟨h1.trans (Nat.div_le_self _ _), h2.trans (Nat.div_le_self _ _)⟩
  obtain ⟨im, s, e⟩ := siftCmd_picture io dbl sched ext wd args v d params ha hp hx (by omega) (by omega)
  have hf := fair_under hs (lastPolicy args)
  rw [e]
  unfold potentialKeypoints
  rw [if_neg (by simp [s.dim]), build_terminated (halves_word hword hf.pixels) hf.levels hs0 hk hl hl' hsz count im w h f
    s hw hh hbad]

/-- Violation: when octave `m` is asked for but its picture would be smaller than 20 pixels in one direction,
memory outside the vector of octaves is read. -/
theorem C147_missing_violation (io : FileIO PayR F) (dbl : Str → Option ℝ) (sched : Sched) (hs : sched.Fair)
    (ext : Val PayR → Act (Option (Val PayR))) (wd : World PayR F) (args : List Str) (v d : Str) (params : List Str)
    (ha : plainWords args = ('$' :: v) :: ('$' :: d) :: params) (count levels : Nat) (sigma k contrast edge : ℝ)
    (word : Str) (hp : AsksSift dbl params count levels sigma k contrast edge word)
    (hword : word = "bicubic".toList ∨ word = "lanczos".toList) (hs0 : 0 ≤ sigma) (hk : 0 ≤ k) (hl : 3 ≤ levels)
    (hl' : levels ≤ 2 ^ 31) (w h : Nat) (f : Nat → Nat → ℝ) (hx : HoldsPicture wd v w h f) (hw0 : 0 < w) (hh0 : 0 < h)
    (hw : w < 2 ^ 29) (hh : h < 2 ^ 29) (m : Nat) (hm : m < count) (hbig : ∀ o < m, 20 ≤ w / 2 ^ o ∧ 20 ≤ h / 2 ^ o)
    (hsmall : w / 2 ^ m < 20 ∨ h / 2 ^ m < 20)
    (hfit : ∀ o < m, ∀ i < levels, Filter.WindowFits (w / 2 ^ o) (h / 2 ^ o) (sigma * k ^ i)) :
    siftCmd io dbl sched ext wd args = .ub := by
  obtain ⟨im, s, e⟩ := siftCmd_picture io dbl sched ext wd args v d params ha hp hx hw0 hh0
  have hf := fair_under hs (lastPolicy args)
  have hres := halves_word hword hf.pixels
  rw [e]
  unfold potentialKeypoints
  have hmono : ∀ o, m ≤ o → w / 2 ^ o ≤ w / 2 ^ m ∧ h / 2 ^ o ≤ h / 2 ^ m := fun o ho =>
    ⟨Nat.div_le_div_left (Nat.pow_le_pow_right (by omega) ho) (by positivity),
      Nat.div_le_div_left (Nat.pow_le_pow_right (by omega) ho) (by positivity)⟩
  rw [if_neg (by simp [s.dim]), build_done hres hf.levels hs0 hk hl' count im w h f s hw hh (fun o ho h1 h2 => by
    by_cases hom : o < m
    · exact hfit o hom
    · have := hmono o (by omega)
      omega)]
  have hbase : ∀ o ≤ m, (baseOf (resOr (resampleBy (sched.under (lastPolicy args)).pixels word)) o im).Shows
      (w / 2 ^ o) (h / 2 ^ o) (pyramid word w h f o) := fun o ho =>
    base_shows hres o im w h f s hw hh fun o' ho' => hbig o' (by omega)
  dsimp only
  rw [searchOctaves_ub (dogOr sigma k) (resOr (resampleBy (sched.under (lastPolicy args)).pixels word)) im
    (levelOf word w h f sigma k) hl (by omega) (by omega) (by omega) hm
    (fun o ho => ⟨(hbase o ho).width, (hbase o ho).height⟩) (fun o ho i hi => by
      have a : w / 2 ^ o ≤ w := Nat.div_le_self _ _
      have b : h / 2 ^ o ≤ h := Nat.div_le_self _ _
      exact dogOr_shows (hbase o (by omega)) hs0 hk (hfit o ho i (by omega)) (hfit o ho (i + 1) (by omega)) (by omega)
        (by omega)) hbig hsmall contrast edge hf.octaves hf.scales hf.inspect]
  rfl

/-- Violation: with fewer than three levels, memory outside the vectors is read (or the process ends because
of a window). -/
theorem C147_levels_violation (io : FileIO PayR F) (dbl : Str → Option ℝ) (sched : Sched) (hs : sched.Fair)
    (ext : Val PayR → Act (Option (Val PayR))) (wd : World PayR F) (args : List Str) (v d : Str) (params : List Str)
    (ha : plainWords args = ('$' :: v) :: ('$' :: d) :: params) (count levels : Nat) (sigma k contrast edge : ℝ)
    (word : Str) (hp : AsksSift dbl params count levels sigma k contrast edge word)
    (hword : word = "bicubic".toList ∨ word = "lanczos".toList) (hs0 : 0 ≤ sigma) (hk : 0 ≤ k) (hl : levels < 3)
    (hc : 0 < count) (w h : Nat) (f : Nat → Nat → ℝ) (hx : HoldsPicture wd v w h f) (hw0 : 0 < w) (hh0 : 0 < h)
    (hw : w < 2 ^ 29) (hh : h < 2 ^ 29)
    (hfit : ∀ o < count, 20 ≤ w / 2 ^ o → 20 ≤ h / 2 ^ o → ∀ i < levels,
      Filter.WindowFits (w / 2 ^ o) (h / 2 ^ o) (sigma * k ^ i)) :
    siftCmd io dbl sched ext wd args = .ub := by
  obtain ⟨im, s, e⟩ := siftCmd_picture io dbl sched ext wd args v d params ha hp hx hw0 hh0
  have hf := fair_under hs (lastPolicy args)
  rw [e]
  unfold potentialKeypoints
  rw [if_neg (by simp [s.dim]), build_done (halves_word hword hf.pixels) hf.levels hs0 hk (by omega) count im w h f s hw
    hh hfit]
  dsimp only
  rw [searchOctaves_levels_ub _ _ im hl hc contrast edge hf.octaves hf.scales]
  rfl

/-- Violation: with the default values, the command never stores anything for a picture smaller than 224
pixels in one direction: it ends the process or reads memory outside the vector of octaves. -/
theorem C147_default_violation (io : FileIO PayR F) (dbl : Str → Option ℝ) (sched : Sched) (hs : sched.Fair)
    (ext : Val PayR → Act (Option (Val PayR))) (wd : World PayR F) (args : List Str) (v d : Str)
    (ha : plainWords args = ['$' :: v, '$' :: d]) (w h : Nat)
    (f : Nat → Nat → ℝ) (hx : HoldsPicture wd v w h f) (hw0 : 0 < w) (hh0 : 0 < h) (hw : w < 2 ^ 29) (hh : h < 2 ^ 29)
    (hsmall : w < 224 ∨ h < 224) :
    siftCmd io dbl sched ext wd args = .ok ⟨wd, .terminated, none⟩ ∨ siftCmd io dbl sched ext wd args = .ub := by
  have hp : AsksSift dbl [] 4 5 1.6 (Real.sqrt 2) 8 12.1 "bicubic".toList := ⟨rfl, rfl, rfl, rfl, rfl, rfl, rfl⟩
  by_cases hbad : ∃ o < 4, 20 ≤ w / 2 ^ o ∧ 20 ≤ h / 2 ^ o ∧ ∃ i < 5,
      ¬ Filter.WindowFits (w / 2 ^ o) (h / 2 ^ o) (1.6 * Real.sqrt 2 ^ i)
  · left
    exact C147_small_violation io dbl sched hs ext wd args v d [] ha 4 5 1.6 (Real.sqrt 2) 8 12.1 _ hp (.inl rfl)
      (by norm_num) (Real.sqrt_nonneg 2) (by omega) (by omega)
      (fun i hi => by have := default_windows i hi; omega) w h f hx hw hh hbad
  · right
    push Not at hbad
    have hlast : w / 2 ^ 3 < 20 ∨ h / 2 ^ 3 < 20 := by
      by_contra hc
      push Not at hc
      have hfit := hbad 3 (by omega) hc.1 hc.2 4 (by omega)
      unfold Filter.WindowFits at hfit
      rw [default_last_window] at hfit
      omega
    classical
    have hex : ∃ m, w / 2 ^ m < 20 ∨ h / 2 ^ m < 20 := ⟨3, hlast⟩
    have hm := Nat.find_spec hex
    have hle : Nat.find hex ≤ 3 := Nat.find_min' hex hlast
    have hbig : ∀ o < Nat.find hex, 20 ≤ w / 2 ^ o ∧ 20 ≤ h / 2 ^ o := fun o ho => by
      have := Nat.find_min hex ho
      omega
    exact C147_missing_violation io dbl sched hs ext wd args v d [] ha 4 5 1.6 (Real.sqrt 2) 8 12.1 _ hp (.inl rfl)
      (by norm_num) (Real.sqrt_nonneg 2) (by omega) (by omega) w h f hx hw0 hh0 hw hh (Nat.find hex) (by omega) hbig hm
      (fun o ho => hbad o (by omega) (hbig o ho).1 (hbig o ho).2)

/-- A name of a resampling method other than `bicubic` and `lanczos`: the command fails. -/
theorem C147_method (io : FileIO PayR F) (dbl : Str → Option ℝ) (sched : Sched) (hs : sched.Fair)
    (ext : Val PayR → Act (Option (Val PayR))) (wd : World PayR F) (args : List Str) (v d : Str) (params : List Str)
    (ha : plainWords args = ('$' :: v) :: ('$' :: d) :: params) (count levels : Nat) (sigma k contrast edge : ℝ)
    (word : Str) (hp : AsksSift dbl params count levels sigma k contrast edge word)
    (hword : word ≠ "bicubic".toList ∧ word ≠ "lanczos".toList) (hs0 : 0 ≤ sigma) (hk : 0 ≤ k) (hc : 0 < count)
    (hl' : levels ≤ 2 ^ 31) (w h : Nat) (f : Nat → Nat → ℝ) (hx : HoldsPicture wd v w h f)
    (hw : w < 2 ^ 29) (hh : h < 2 ^ 29) (hbig : 20 ≤ w ∧ 20 ≤ h)
    (hfit : ∀ i < levels, Filter.WindowFits w h (sigma * k ^ i)) :
    Failed wd (siftCmd io dbl sched ext wd args) := by
  obtain ⟨im, s, e⟩ := siftCmd_picture io dbl sched ext wd args v d params ha hp hx (by omega) (by omega)
  have hf := fair_under hs (lastPolicy args)
  obtain ⟨n, rfl⟩ : ∃ n, count = n + 1 := ⟨count - 1, by omega⟩
  unfold Failed
  rw [e]
  unfold potentialKeypoints buildOctaves
  rw [if_neg (by simp [s.dim]), s.width, s.height, if_neg (by omega),
    octave_dogOr s hs0 hk hl' hfit hw hh (hf.levels _ _)]
  have : ∀ a b, resampleBy (sched.under (lastPolicy args)).pixels word im a b = .throw .invalidArg := by
    intro a b
    unfold resampleBy
    rw [if_neg hword.2, if_neg hword.1]
  dsimp only
  rw [this]
  rfl

/-- Fewer than two plain words, a second one that is not a variable, or an image of complex numbers, of hue,
saturation and value, of floating-point colours or of integers other than bytes: nothing changes. A count
without digits, a parameter that is not a number or an image of 8-bit colours: the command fails. -/
theorem C147_rejected (io : FileIO PayR F) (dbl : Str → Option ℝ) (sched : Sched)
    (ext : Val PayR → Act (Option (Val PayR))) (wd : World PayR F) (args : List Str) :
    ((plainWords args).length < 2 → Nothing wd (siftCmd io dbl sched ext wd args)) ∧
    (∀ a b more, plainWords args = a :: b :: more → (∀ d, b ≠ '$' :: d) → Nothing wd (siftCmd io dbl sched ext wd args)) ∧
    (∀ a d more x, plainWords args = a :: ('$' :: d) :: more → (more[0]? = some x ∨ more[1]? = some x) →
      (∀ c ∈ x, ¬ c.isDigit) → Failed wd (siftCmd io dbl sched ext wd args)) ∧
    (∀ a d more x i, plainWords args = a :: ('$' :: d) :: more → 2 ≤ i → i < 6 → more[i]? = some x →
      (∀ s, Means x s → dbl s = none) → Failed wd (siftCmd io dbl sched ext wd args)) ∧
    (∀ v d more count levels sigma k contrast edge word p, plainWords args = ('$' :: v) :: ('$' :: d) :: more →
      AsksSift dbl more count levels sigma k contrast edge word →
      wd.ws.retrieveAny v = some (.atom tyRgb p) → Failed wd (siftCmd io dbl sched ext wd args)) ∧
    (∀ v d more count levels sigma k contrast edge word p t, plainWords args = ('$' :: v) :: ('$' :: d) :: more →
      AsksSift dbl more count levels sigma k contrast edge word →
      t = tyComplex ∨ t = tyHsv ∨ t = tyRgbDouble ∨ (∃ n, t = .image (.num n) ∧ n ≠ .double ∧ n ≠ .uchar) →
      wd.ws.retrieveAny v = some (.atom t p) → Nothing wd (siftCmd io dbl sched ext wd args)) := by
  have fail : ∀ a d more, plainWords args = a :: ('$' :: d) :: more → siftArgs dbl more = none →
      Failed wd (siftCmd io dbl sched ext wd args) := by
    intro a d more h e
    unfold Failed siftCmd
    rw [argsFilter_eq, h]
    dsimp only
    rw [if_pos (show isVar ('$' :: d) = true from rfl), e]
    rfl
  refine ⟨?_, ?_, ?_, ?_, ?_, ?_⟩
  · intro h
    unfold Nothing siftCmd
    rw [argsFilter_eq]
    match plainWords args, h with
    | [], _ => rfl
    | [_], _ => rfl
  · intro a b more h hb
    have : isVar b = false := by
      cases b with
      | nil => rfl
      | cons c d =>
        by_cases hc : c = '$'
        · exact (hb d (by rw [hc])).elim
        · simp [isVar, hc]
    unfold Nothing siftCmd
    rw [argsFilter_eq, h]
    dsimp only
    rw [if_neg (by simp [this])]
    rfl
  · intro a d more x h hi hx
    refine fail a d more h ?_
    unfold siftArgs
    rcases hi with hi | hi
    · rw [show optArg parseSize 4 more 0 = none by unfold optArg; rw [hi]; exact parseSize_nodigit hx]
      rfl
    · rw [show optArg parseSize 5 more 1 = none by unfold optArg; rw [hi]; exact parseSize_nodigit hx]
      cases optArg parseSize 4 more 0 <;> rfl
  · intro a d more x i h h2 h6 hi hx
    refine fail a d more h ?_
    have e : ∀ dflt : ℝ, optArg (fun a => dbl (sanitize a)) dflt more i = none := by
      intro dflt
      unfold optArg
      rw [hi]
      exact hx _ (means_iff.2 rfl)
    unfold siftArgs
    have : i = 2 ∨ i = 3 ∨ i = 4 ∨ i = 5 := by omega
    rcases this with rfl | rfl | rfl | rfl <;> rw [e]
    · cases optArg parseSize 4 more 0 <;> cases optArg parseSize 5 more 1 <;> rfl
    · cases optArg parseSize 4 more 0 <;> cases optArg parseSize 5 more 1 <;>
        cases optArg (fun a => dbl (sanitize a)) 1.6 more 2 <;> rfl
    · cases optArg parseSize 4 more 0 <;> cases optArg parseSize 5 more 1 <;>
        cases optArg (fun a => dbl (sanitize a)) 1.6 more 2 <;>
        cases optArg (fun a => dbl (sanitize a)) (Real.sqrt 2) more 3 <;> rfl
    · cases optArg parseSize 4 more 0 <;> cases optArg parseSize 5 more 1 <;>
        cases optArg (fun a => dbl (sanitize a)) 1.6 more 2 <;>
        cases optArg (fun a => dbl (sanitize a)) (Real.sqrt 2) more 3 <;>
        cases optArg (fun a => dbl (sanitize a)) 8 more 4 <;> rfl
  · intro v d more count levels sigma k contrast edge word p h hp hv
    unfold Failed
    rw [siftCmd_act io dbl sched ext wd args v d more h _ (asksSift_read hp) _ hv rfl]
    rfl
  · intro v d more count levels sigma k contrast edge word p t h hp ht hv
    unfold Nothing
    rcases ht with rfl | rfl | rfl | ⟨n, rfl, h1, h2⟩
    · rw [siftCmd_act io dbl sched ext wd args v d more h _ (asksSift_read hp) _ hv rfl]
      rfl
    · rw [siftCmd_act io dbl sched ext wd args v d more h _ (asksSift_read hp) _ hv rfl]
      rfl
    · rw [siftCmd_act io dbl sched ext wd args v d more h _ (asksSift_read hp) _ hv rfl]
      rfl
    · rw [siftCmd_act io dbl sched ext wd args v d more h _ (asksSift_read hp) _ hv (by cases n <;> rfl)]
      cases n <;> first | rfl | exact absurd rfl h1 | exact absurd rfl h2

end TinyDIP.Props
