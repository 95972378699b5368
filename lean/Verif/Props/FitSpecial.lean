import Verif.Spec.FitSpecial
import Verif.Lemmas.Special
import Verif.Lemmas.Fit
import Verif.Lemmas.Pixelwise

/-!
# Property C214: fitting a Gaussian with all values a `double` can have
-/

namespace TinyDIP.Sp

open TinyDIP Image Rnd Dbl

/-! ## Helpers -/

theorem lit_small_pos : (0 : ℝ) < dbl 1e-6 := by
  have h := dbl_err 1e-6
  have : eps ≤ 1 / 2 := by unfold eps; norm_num
  rw [abs_le] at h
  have e : |(1e-6 : ℝ)| = 1e-6 := abs_of_pos (by norm_num)
  rw [e] at h
  nlinarith [h.1]

theorem lit_neg (x : ℝ) : dbl (-x) = -dbl x := fl_neg x

theorem clamp_width (v : Dbl) : Width (maxD (lit 1e-6) v) := by
  unfold maxD
  split_ifs with h
  · cases v with
    | num x => exact .inr ⟨x, rfl, le_of_lt h⟩
    | pinf => exact .inl rfl
    | ninf => exact absurd h (by simp [lit, Dbl.lt])
    | nan => exact absurd h (by simp [lit, Dbl.lt])
  · exact .inr ⟨_, rfl, le_rfl⟩

theorem clamp_rho {c : ℝ} (hc : 0 ≤ c) (v : Dbl) : ∃ r : ℝ, maxD (.num (-c)) (minD (.num c) v) = .num r ∧ |r| ≤ c := by
  have key : ∀ r : ℝ, r ≤ c → ∃ q : ℝ, maxD (.num (-c)) (.num r) = .num q ∧ |q| ≤ c := by
    intro r hr
    unfold maxD
    split_ifs with h
    · exact ⟨r, rfl, abs_le.2 ⟨le_of_lt h, hr⟩⟩
    · exact ⟨-c, rfl, by rw [abs_neg, abs_of_nonneg hc]⟩
  unfold minD
  split_ifs with h
  · cases v with
    | num x => exact key x (le_of_lt h)
    | pinf => exact absurd h (by simp [Dbl.lt])
    | nan => exact absurd h (by simp [Dbl.lt])
    | ninf =>
      refine ⟨-c, ?_, by rw [abs_neg, abs_of_nonneg hc]⟩
      unfold maxD
      rw [if_neg (by simp [Dbl.lt])]
  · exact key c le_rfl

theorem clamp_corr (x : ℝ) (hx : 0 ≤ x) (h1 : x ≤ 0.999) (v : Dbl) :
    Correlation (maxD (lit (-x)) (minD (lit x) v)) := by
  obtain ⟨r, e, hr⟩ := clamp_rho (dbl_nonneg hx) v
  refine ⟨r, ?_, hr.trans (dbl_mono h1)⟩
  rw [← e, lit, lit, lit_neg]

theorem move_valid (p : ParD) (d : Nat → Dbl) : ValidShape (moveD p d) :=
  ⟨clamp_width _, clamp_width _, clamp_corr 0.999 (by norm_num) le_rfl _⟩

theorem shape_valid (E : FitLib) (A x0 y0 z a b c : Dbl) : ValidShape (shapeD E A x0 y0 z a b c) :=
  ⟨clamp_width _, clamp_width _, clamp_corr 0.99 (by norm_num) (by norm_num) _⟩

theorem mapAll_ok {β : Type} {f : Nat → Res β} {g : Nat → β} {l : List Nat} (h : ∀ i ∈ l, f i = .ok (g i)) :
    mapAll f l = .ok (l.map g) := by
  induction l with
  | nil => rfl
  | cons a l ih =>
    rw [mapAll, h a (by simp), Res.ok_bind, ih fun i hi => h i (by simp [hi])]
    rfl

section
variable {im : Image Dbl} {w h : Nat} {f : Nat → Nat → Dbl}

/-- The residual of a pixel. -/
noncomputable def resD (E : FitLib) (w : Nat) (f : Nat → Nat → Dbl) (p : ParD) (i : Nat) : Dbl :=
  (f (i % w) (i / w)).sub
    (valD E p ((Dbl.ofNat (i % w)).sub p.x0) ((Dbl.ofNat (i / w)).sub p.y0))

theorem offsetD_px {i : Nat} (hi : i < w * h) (p : ParD) :
    offsetD w i p = .ok ((Dbl.ofNat (i % w)).sub p.x0, (Dbl.ofNat (i / w)).sub p.y0) := by
  have hw : w ≠ 0 := by rintro rfl; simp at hi
  simp [offsetD, umod, udiv, hw]

theorem get_px (s : im.Shows w h f) {i : Nat} (hi : i < w * h) : im.get i = .ok (f (i % w) (i / w)) := by
  have hw : 0 < w := by
    rcases Nat.eq_zero_or_pos w with rfl | h0
    · simp at hi
    · exact h0
  have hx : i % w < w := Nat.mod_lt _ hw
  have hy : i / w < h := Nat.div_lt_of_lt_mul hi
  have := s.data? hx hy
  rw [Nat.mod_add_div] at this
  simp [Image.get, vget, this]

theorem sse_terms (s : im.Shows w h f) (E : FitLib) (p : ParD) :
    mapAll (sseMapperD E im p) (List.range im.count) =
      .ok ((List.range (w * h)).map fun i => (resD E w f p i).mul (resD E w f p i)) := by
  rw [s.count]
  refine mapAll_ok fun i hi => ?_
  have hi := List.mem_range.1 hi
  rw [sseMapperD, s.width, offsetD_px hi, Res.ok_bind, get_px s hi, Res.ok_bind]
  rfl

theorem lm_terms (s : im.Shows w h f) (E : FitLib) (p : ParD) :
    ∃ T : Nat → AccD, mapAll (lmMapperD E im p) (List.range im.count) = .ok ((List.range (w * h)).map T) ∧
      ∀ i, (T i).sse = (resD E w f p i).mul (resD E w f p i) := by
  refine ⟨fun i => ⟨(resD E w f p i).mul (resD E w f p i),
    fun a b => (jacD E p ((Dbl.ofNat (i % w)).sub p.x0) ((Dbl.ofNat (i / w)).sub p.y0) a).mul
      (jacD E p ((Dbl.ofNat (i % w)).sub p.x0) ((Dbl.ofNat (i / w)).sub p.y0) b),
    fun a => (jacD E p ((Dbl.ofNat (i % w)).sub p.x0) ((Dbl.ofNat (i / w)).sub p.y0) a).mul (resD E w f p i)⟩,
    ?_, fun i => rfl⟩
  rw [s.count]
  refine mapAll_ok fun i hi => ?_
  have hi := List.mem_range.1 hi
  rw [lmMapperD, s.width, offsetD_px hi, Res.ok_bind, get_px s hi, Res.ok_bind]
  rfl

/-- The error part of a reduction of accumulators. -/
theorem reduce_sse {l : List AccD} {acc : AccD} (hr : StdReduce AccD.add AccD.zero l acc) :
    StdReduce Dbl.add (.num 0) (l.map (·.sse)) acc.sse := by
  obtain ⟨q, hq, hb⟩ := hr
  refine ⟨q.map (·.sse), ?_, ?_⟩
  · have := hq.map (·.sse)
    simpa [AccD.zero] using this
  · clear hq
    induction hb with
    | one a => exact .one _
    | node h1 h2 i1 i2 => rw [List.map_append]; exact .node i1 i2

/-- What an iteration does to the parameters: nothing, or a move whose computed error is smaller. -/
theorem step_cases (s : im.Shows w h f) (E : FitLib) (tol : Dbl) (st : ParD × Dbl) {r : Res (Option (ParD × Dbl))}
    (hr : StepD E im tol st r) :
    r = .ok none ∨ (∃ lam, r = .ok (some (st.1, lam))) ∨
    ∃ d lam a b, r = .ok (some (moveD st.1 d, lam)) ∧ b.lt a ∧
      StdReduce Dbl.add (.num 0) ((List.range (w * h)).map fun i => (resD E w f st.1 i).mul (resD E w f st.1 i)) a ∧
      StdReduce Dbl.add (.num 0) ((List.range (w * h)).map fun i =>
        (resD E w f (moveD st.1 d) i).mul (resD E w f (moveD st.1 d) i)) b := by
  obtain ⟨T, e, hT⟩ := lm_terms s E st.1
  rw [StepD, e] at hr
  obtain ⟨acc, ha, hr⟩ := hr
  have hs := reduce_sse ha
  rw [List.map_map] at hs
  have e2 : ((fun x : AccD => x.sse) ∘ T) = fun i => (resD E w f st.1 i).mul (resD E w f st.1 i) := funext hT
  rw [e2] at hs
  simp only at hr
  split_ifs at hr with hc
  · exact .inl hr
  · rw [sse_terms s E] at hr
    obtain ⟨b, hb, hr⟩ := hr
    split_ifs at hr with hl
    · exact .inr (.inr ⟨_, _, _, _, hr, hl, hs, hb⟩)
    · exact .inr (.inl ⟨_, hr⟩)

theorem step_exists (s : im.Shows w h f) (E : FitLib) (tol : Dbl) (st : ParD × Dbl) : ∃ r, StepD E im tol st r := by
  obtain ⟨T, e, hT⟩ := lm_terms s E st.1
  simp only [StepD, e, sse_terms s E]
  by_cases hc : (deltaSqD (deltaD E (((List.range (w * h)).map T).foldl AccD.add AccD.zero) st.2)).lt tol
  · exact ⟨_, _, stdReduce_exists _ _ _, by rw [if_pos hc]⟩
  · exact ⟨_, _, stdReduce_exists _ _ _, by rw [if_neg hc]; exact ⟨_, stdReduce_exists _ _ _, rfl⟩⟩

theorem loop_exists (s : im.Shows w h f) (E : FitLib) (tol : Dbl) :
    ∀ (n : Nat) (st : ParD × Dbl), ∃ r, LoopD E im tol n st r := by
  intro n
  induction n with
  | zero => intro st; exact ⟨_, rfl⟩
  | succ n ih =>
    intro st
    obtain ⟨q, hq⟩ := step_exists s E tol st
    rcases step_cases s E tol st hq with rfl | ⟨lam, rfl⟩ | ⟨d, lam, a, b, rfl, -⟩
    · exact ⟨_, _, hq, rfl⟩
    · obtain ⟨r, hr⟩ := ih (st.1, lam)
      exact ⟨r, _, hq, hr⟩
    · obtain ⟨r, hr⟩ := ih (moveD st.1 d, lam)
      exact ⟨r, _, hq, hr⟩

/-- Every outcome of the loop is a set of parameters with a property that moves with a smaller error have. -/
theorem loop_inv' (s : im.Shows w h f) (E : FitLib) (tol : Dbl) (P : ParD → Prop)
    (hP : ∀ (p : ParD) (d : Nat → Dbl) (a b : Dbl), P p → b.lt a →
      StdReduce Dbl.add (.num 0) ((List.range (w * h)).map fun i => (resD E w f p i).mul (resD E w f p i)) a →
      StdReduce Dbl.add (.num 0) ((List.range (w * h)).map fun i =>
        (resD E w f (moveD p d) i).mul (resD E w f (moveD p d) i)) b → P (moveD p d)) :
    ∀ (n : Nat) (st : ParD × Dbl) (r : Res ParD), P st.1 → LoopD E im tol n st r → ∃ p, r = .ok p ∧ P p := by
  intro n
  induction n with
  | zero => intro st r h0 hr; exact ⟨_, hr, h0⟩
  | succ n ih =>
    intro st r h0 hr
    obtain ⟨q, hq, hr⟩ := hr
    rcases step_cases s E tol st hq with rfl | ⟨lam, rfl⟩ | ⟨d, lam, a, b, rfl, h1, h2, h3⟩
    · exact ⟨_, hr, h0⟩
    · exact ih (st.1, lam) r h0 hr
    · exact ih (moveD st.1 d, lam) r (hP _ d a b h0 h1 h2 h3) hr

theorem topIndexD_spec (s : im.Shows w h f) (hn : 0 < w * h) :
    ∃ m, topIndexD im (List.range (w * h)) = .ok m ∧ m < w * h := by
  obtain ⟨k, hk⟩ : ∃ k, w * h = k + 1 := ⟨w * h - 1, by omega⟩
  have key : ∀ (l : List Nat) (a : Nat), (∀ i ∈ l, i < w * h) → a < w * h → 
      ∃ m, loop (fun best j => do
        let a ← im.get best
        let b ← im.get j
        .ok (open scoped Classical in if a.lt b then j else best)) l a = Res.ok m ∧ m < w * h := by
    intro l
    induction l with
    | nil => intro a _ ha; exact ⟨a, rfl, ha⟩
    | cons i l ih =>
      intro a hl ha
      rw [loop, get_px s ha, Res.ok_bind, get_px s (hl i (by simp)), Res.ok_bind]
      simp only
      refine ih _ (fun j hj => hl j (by simp [hj])) ?_
      split_ifs
      · exact hl i (by simp)
      · exact ha
  have e : List.range (w * h) = 0 :: (List.range' 1 k) := by
    rw [hk, List.range_eq_range', List.range'_succ]
  rw [e, topIndexD]
  refine key _ 0 (fun i hi => ?_) hn
  rw [List.mem_range'_1] at hi
  omega

theorem topIndexD_first (s : im.Shows w h f) (hn : 0 < w * h) (h0 : f 0 0 = .nan) :
    topIndexD im (List.range (w * h)) = .ok 0 := by
  obtain ⟨k, hk⟩ : ∃ k, w * h = k + 1 := ⟨w * h - 1, by omega⟩
  have e0 : im.get 0 = .ok .nan := by rw [get_px s hn, Nat.zero_mod, Nat.zero_div, h0]
  have key : ∀ (l : List Nat), (∀ i ∈ l, i < w * h) → 
      loop (fun best j => do
        let a ← im.get best
        let b ← im.get j
        .ok (open scoped Classical in if a.lt b then j else best)) l 0 = Res.ok 0 := by
    intro l
    induction l with
    | nil => intro _; rfl
    | cons i l ih =>
      intro hl
      rw [loop, e0, Res.ok_bind, get_px s (hl i (by simp)), Res.ok_bind, if_neg (nan_not_lt _)]
      simp only
      exact ih fun j hj => hl j (by simp [hj])
  have e : List.range (w * h) = 0 :: (List.range' 1 k) := by
    rw [hk, List.range_eq_range', List.range'_succ]
  rw [e, topIndexD]
  refine key _ (fun i hi => ?_)
  rw [List.mem_range'_1] at hi
  omega

/-- What the pixel `i` adds to the moments. -/
noncomputable def momentAt (w : Nat) (f : Nat → Nat → Dbl) (A x0 y0 : Dbl) (i : Nat) : Option (Dbl × Dbl × Dbl × Dbl) :=
  open scoped Classical in
  let z := f (i % w) (i / w)
  let dx := (Dbl.ofNat (i % w)).sub x0
  let dy := (Dbl.ofNat (i / w)).sub y0
  if (A.mul (lit 0.1)).lt z then some (z, (dx.mul dx).mul z, (dy.mul dy).mul z, (dx.mul dy).mul z) else none

theorem momentD_px (s : im.Shows w h f) {i : Nat} (hi : i < w * h) (A x0 y0 : Dbl) :
    momentD im A x0 y0 i = .ok (momentAt w f A x0 y0 i) := by
  have hw : w ≠ 0 := by rintro rfl; simp at hi
  rw [momentD, get_px s hi, Res.ok_bind, momentAt]
  simp only
  split_ifs
  · simp [umod, udiv, s.width, hw]
  · rfl

theorem guess_iff (s : im.Shows w h f) (hn : 0 < w * h) (hlt : w * h < 2 ^ 31) (E : FitLib) :
    ∃ m, m < w * h ∧ topIndexD im (List.range (w * h)) = .ok m ∧ ∀ r, GuessD E im r ↔
      (let A := f (m % w) (m / w)
       let l := ((List.range (w * h)).map (momentAt w f A (Dbl.ofNat (m % w)) (Dbl.ofNat (m / w)))).filterMap id
       ∃ z dx2 dy2 dxdy, OmpSum (l.map (·.1)) z ∧ OmpSum (l.map (·.2.1)) dx2 ∧
        OmpSum (l.map (·.2.2.1)) dy2 ∧ OmpSum (l.map (·.2.2.2)) dxdy ∧
        r = .ok (shapeD E A (Dbl.ofNat (m % w)) (Dbl.ofNat (m / w)) z dx2 dy2 dxdy)) := by
  obtain ⟨m, em, hm⟩ := topIndexD_spec s hn
  have hw : w ≠ 0 := by rintro rfl; simp at hn
  refine ⟨m, hm, em, fun r => ?_⟩
  have e1 : umod m w = .ok (m % w) := by simp [umod, hw]
  have e2 : udiv m w = .ok (m / w) := by simp [udiv, hw]
  rw [GuessD, s.count, if_neg (by omega), em, Res.ok_bind, get_px s hm, Res.ok_bind, s.width, e1, Res.ok_bind, e2,
    Res.ok_bind, mapAll_ok (g := momentAt w f (f (m % w) (m / w)) (Dbl.ofNat (m % w)) (Dbl.ofNat (m / w)))
      (fun i hi => momentD_px s (List.mem_range.1 hi) _ _ _), Res.ok_bind]

theorem ompSum_exists (l : List Dbl) : ∃ v, OmpSum l v := ⟨_, 0, stdReduce_exists _ _ _⟩

theorem guess_exists (s : im.Shows w h f) (hn : 0 < w * h) (hlt : w * h < 2 ^ 31) (E : FitLib) :
    ∃ r, GuessD E im r := by
  obtain ⟨m, -, -, hg⟩ := guess_iff s hn hlt E
  refine ⟨_, (hg _).2 ⟨_, _, _, _, (ompSum_exists _).choose_spec, (ompSum_exists _).choose_spec,
    (ompSum_exists _).choose_spec, (ompSum_exists _).choose_spec, rfl⟩⟩

theorem guess_valid (s : im.Shows w h f) (hn : 0 < w * h) (hlt : w * h < 2 ^ 31) (E : FitLib) {r : Res ParD}
    (hr : GuessD E im r) : ∃ p, r = .ok p ∧ ValidShape p := by
  obtain ⟨m, -, -, hg⟩ := guess_iff s hn hlt E
  obtain ⟨z, a, b, c, -, -, -, -, e⟩ := (hg r).1 hr
  exact ⟨_, e, shape_valid _ _ _ _ _ _ _ _⟩

/-! ### Computed errors -/

/-- Sums of squares: numbers that are not negative, infinity, NaN. -/
def NonNeg (v : Dbl) : Prop := v = .nan ∨ v = .pinf ∨ ∃ x : ℝ, 0 ≤ x ∧ v = .num x

/-- No finite number. -/
def Lost (v : Dbl) : Prop := v = .nan ∨ v = .pinf

theorem rnd_nonneg {x : ℝ} (h : 0 ≤ x) : NonNeg (Dbl.rnd x) := by
  have h0 := dbl_nonneg h
  unfold Dbl.rnd
  have hK : (0 : ℝ) < 2 ^ 1024 := by positivity
  generalize (2 : ℝ) ^ 1024 = K at *
  split_ifs with h1 h2
  · exact .inr (.inl rfl)
  · linarith
  · exact .inr (.inr ⟨_, h0, rfl⟩)

theorem square_nonneg (r : Dbl) : NonNeg (r.mul r) := by
  cases r with
  | num x => exact rnd_nonneg (mul_self_nonneg x)
  | pinf => exact .inr (.inl rfl)
  | ninf => exact .inr (.inl rfl)
  | nan => exact .inl rfl

theorem NonNeg.add {a b : Dbl} (ha : NonNeg a) (hb : NonNeg b) : NonNeg (a.add b) := by
  rcases ha with rfl | rfl | ⟨x, hx, rfl⟩ <;> rcases hb with rfl | rfl | ⟨y, hy, rfl⟩
  all_goals first
    | exact rnd_nonneg (add_nonneg hx hy)
    | exact .inl rfl
    | exact .inr (.inl rfl)

theorem Lost.add_left {a b : Dbl} (ha : Lost a) (hb : NonNeg b) : Lost (a.add b) := by
  rcases ha with rfl | rfl <;> rcases hb with rfl | rfl | ⟨y, hy, rfl⟩
  all_goals first
    | exact .inl rfl
    | exact .inr rfl

theorem Lost.add_right {a b : Dbl} (hb : Lost b) (ha : NonNeg a) : Lost (a.add b) := by
  rcases hb with rfl | rfl <;> rcases ha with rfl | rfl | ⟨y, hy, rfl⟩
  all_goals first
    | exact .inl rfl
    | exact .inr rfl

theorem brackets_lost {l : List Dbl} {v : Dbl} (hb : Brackets Dbl.add l v) (hl : ∀ a ∈ l, NonNeg a) :
    NonNeg v ∧ ((∃ a ∈ l, Lost a) → Lost v) ∧ (.nan ∈ l → v = .nan) := by
  induction hb with
  | one a => exact ⟨hl a (by simp), fun ⟨b, hb, h⟩ => by rw [List.mem_singleton] at hb; exact hb ▸ h,
      fun h => (List.mem_singleton.1 h).symm⟩
  | @node l₁ l₂ a b h1 h2 i1 i2 =>
    obtain ⟨n1, k1, q1⟩ := i1 fun a ha => hl a (by simp [ha])
    obtain ⟨n2, k2, q2⟩ := i2 fun a ha => hl a (by simp [ha])
    refine ⟨n1.add n2, ?_, ?_⟩
    · rintro ⟨c, hc, hL⟩
      rcases List.mem_append.1 hc with hc | hc
      · exact (k1 ⟨c, hc, hL⟩).add_left n2
      · exact (k2 ⟨c, hc, hL⟩).add_right n1
    · intro hc
      rcases List.mem_append.1 hc with hc | hc
      · rw [q1 hc]; cases b <;> rfl
      · rw [q2 hc]; cases a <;> rfl

theorem reduce_lost {g : Nat → Dbl} {n : Nat} {v : Dbl}
    (hr : StdReduce Dbl.add (.num 0) ((List.range n).map fun i => (g i).mul (g i)) v) :
    ((∃ i < n, Lost ((g i).mul (g i))) → Lost v) ∧ ((∃ i < n, g i = .nan) → v = .nan) := by
  obtain ⟨q, hq, hb⟩ := hr
  have hl : ∀ a ∈ q, NonNeg a := by
    intro a ha
    rcases List.mem_cons.1 (hq.mem_iff.1 ha) with rfl | ha
    · exact .inr (.inr ⟨0, le_rfl, rfl⟩)
    · obtain ⟨i, -, rfl⟩ := List.mem_map.1 ha
      exact square_nonneg _
  obtain ⟨-, k, q'⟩ := brackets_lost hb hl
  constructor
  · rintro ⟨i, hi, hL⟩
    exact k ⟨_, hq.mem_iff.2 (List.mem_cons_of_mem _ (List.mem_map_of_mem (List.mem_range.2 hi))), hL⟩
  · rintro ⟨i, hi, hN⟩
    refine q' (hq.mem_iff.2 (List.mem_cons_of_mem _ (List.mem_map.2 ⟨i, List.mem_range.2 hi, ?_⟩)))
    rw [hN]; rfl

theorem lost_pixel {z : Dbl} (hz : ∀ x : ℝ, z ≠ .num x) (v : Dbl) : Lost ((z.sub v).mul (z.sub v)) := by
  have hs : z.sub v = .nan ∨ z.sub v = .pinf ∨ z.sub v = .ninf := by
    cases z with
    | num x => exact absurd rfl (hz x)
    | nan => cases v <;> exact .inl rfl
    | pinf => cases v <;> first | exact .inl rfl | exact .inr (.inl rfl)
    | ninf => cases v <;> first | exact .inl rfl | exact .inr (.inr rfl)
  rcases hs with e | e | e <;> rw [e]
  · exact .inl rfl
  · exact .inr rfl
  · exact .inr rfl

theorem Lost.not_lt {a b : Dbl} (ha : Lost a) (hb : Lost b) : ¬ b.lt a := by
  rcases ha with rfl | rfl <;> rcases hb with rfl | rfl <;> exact id

theorem nan_add (b : Dbl) : Dbl.nan.add b = .nan := by cases b <;> rfl
theorem add_nan (b : Dbl) : b.add .nan = .nan := by cases b <;> rfl
theorem nan_mul (b : Dbl) : Dbl.nan.mul b = .nan := by cases b <;> rfl
theorem mul_nan (b : Dbl) : b.mul .nan = .nan := by cases b <;> rfl
theorem nan_div (b : Dbl) : Dbl.nan.div b = .nan := by cases b <;> rfl
theorem sub_nan (b : Dbl) : b.sub .nan = .nan := by rw [Dbl.sub]; exact add_nan b
theorem nan_sub (b : Dbl) : Dbl.nan.sub b = .nan := nan_add _

theorem resD_nan {E : FitLib} (hE : E.expo .nan = .nan) (p : ParD)
    (hp : p.amplitude = .nan ∨ p.x0 = .nan ∨ p.y0 = .nan) (i : Nat) : resD E w f p i = .nan := by
  unfold resD valD
  rcases hp with e | e | e
  · rw [e, nan_mul, sub_nan]
  · rw [e, sub_nan]
    simp only [expD, zD, nan_mul, nan_div, nan_sub, nan_add, mul_nan, sub_nan, add_nan, hE]
  · rw [e, sub_nan]
    simp only [expD, zD, nan_mul, nan_div, nan_sub, nan_add, mul_nan, sub_nan, add_nan, hE]

theorem fit_unfold (s : im.Shows w h f) {E : FitLib} {n : Nat} {tol : Dbl} {r : Res ParD} :
    FitD E im n tol r ↔ ∃ g, GuessD E im g ∧
      (match g with
       | .ok p => LoopD E im tol n (p, lit 0.01) r
       | .throw e => r = .throw e
       | .ub => r = .ub) := by
  rw [FitD, if_neg (by simp [s.dim])]
  exact Iff.rfl

/-! ## C214 -/

/-- Whatever values the pixels have, whatever the exponential, the square root and the solver return and however the
sums are grouped, a fit ends with parameters whose widths and correlation are usable: no NaN, no division by
zero. -/
theorem C214_shape (s : im.Shows w h f) (hn : 0 < w * h) (hlt : w * h < 2 ^ 31) (E : FitLib) (n : Nat) (tol : Dbl) :
    (∃ r, FitD E im n tol r) ∧ ∀ r, FitD E im n tol r → ∃ p, r = .ok p ∧ ValidShape p := by
  constructor
  · obtain ⟨g, hg⟩ := guess_exists s hn hlt E
    obtain ⟨p, rfl, -⟩ := guess_valid s hn hlt E hg
    obtain ⟨r, hr⟩ := loop_exists s E tol n (p, lit 0.01)
    exact ⟨r, (fit_unfold s).2 ⟨_, hg, hr⟩⟩
  · intro r hr
    obtain ⟨g, hg, hr⟩ := (fit_unfold s).1 hr
    obtain ⟨p, rfl, hp⟩ := guess_valid s hn hlt E hg
    exact loop_inv' s E tol ValidShape (fun _ _ _ _ _ _ _ _ => move_valid _ _) n _ r hp hr

/-- A witness: a picture of 3 x 2 pixels with an infinite and a NaN pixel. -/
noncomputable def oddPixels : Nat → Nat → Dbl := fun x y => if x = 1 then .pinf else if y = 1 then .nan else .num 2

example := C214_shape (picture_shows 3 2 oddPixels) (by decide) (by decide) ⟨id, id, fun _ g => g⟩ 100 (lit 1e-7)

example : 0 < dbl 1e-6 ∧ dbl 0.999 < 1 := by
  refine ⟨lit_small_pos, ?_⟩
  have h := dbl_err 0.999
  rw [abs_le, abs_of_pos (by norm_num : (0 : ℝ) < 0.999)] at h
  have : eps ≤ 1 / 10 ^ 4 := by unfold eps; norm_num
  nlinarith [h.2]

/-- No iteration brings a NaN into the amplitude or the position: the result is a starting point, or these three are
not NaN. Missing: that the starting point is free of NaN, see `C214_first_pixel_violation`. -/
theorem C214_position_partial (s : im.Shows w h f) (hn : 0 < w * h) (hlt : w * h < 2 ^ 31) (E : FitLib)
    (hE : E.expo .nan = .nan) (n : Nat) (tol : Dbl) (r : Res ParD) (hr : FitD E im n tol r) :
    FitD E im 0 tol r ∨ ∃ p, r = .ok p ∧ p.amplitude ≠ .nan ∧ p.x0 ≠ .nan ∧ p.y0 ≠ .nan := by
  obtain ⟨g, hg, hr⟩ := (fit_unfold s).1 hr
  obtain ⟨p, rfl, hp⟩ := guess_valid s hn hlt E hg
  obtain ⟨q, rfl, hq⟩ := loop_inv' s E tol
    (fun q => q = p ∨ (q.amplitude ≠ .nan ∧ q.x0 ≠ .nan ∧ q.y0 ≠ .nan))
    (fun q d a b _ hl _ hb => by
      right
      by_contra hc
      have hc : (moveD q d).amplitude = .nan ∨ (moveD q d).x0 = .nan ∨ (moveD q d).y0 = .nan := by tauto
      have := (reduce_lost hb).2 ⟨0, hn, resD_nan hE _ hc 0⟩
      rw [this] at hl
      exact nan_not_lt _ hl) n _ r (.inl rfl) hr
  rcases hq with rfl | hq
  · exact .inl ((fit_unfold s).2 ⟨_, hg, rfl⟩)
  · exact .inr ⟨q, rfl, hq⟩

example (r : Res ParD) := C214_position_partial (picture_shows 3 2 oddPixels) (by decide) (by decide)
  ⟨id, id, fun _ g => g⟩ rfl 100 (lit 1e-7) r

/-- One pixel that is infinite or NaN switches the fit off: every result is a starting point, however many iterations
are asked for. -/
theorem C214_lost_pixel_violation (s : im.Shows w h f) (hn : 0 < w * h) (hlt : w * h < 2 ^ 31) (E : FitLib) (X Y : Nat)
    (hX : X < w) (hY : Y < h) (hz : ∀ v : ℝ, f X Y ≠ .num v) (n : Nat) (tol : Dbl) (r : Res ParD)
    (hr : FitD E im n tol r) : FitD E im 0 tol r := by
  obtain ⟨g, hg, hr⟩ := (fit_unfold s).1 hr
  obtain ⟨p, rfl, hp⟩ := guess_valid s hn hlt E hg
  have hi : X + w * Y < w * h := by
    calc X + w * Y < w + w * Y := by omega
      _ = w * (Y + 1) := by ring
      _ ≤ w * h := Nat.mul_le_mul_left _ hY
  have e1 : (X + w * Y) % w = X := by rw [Nat.add_mul_mod_self_left, Nat.mod_eq_of_lt hX]
  have e2 : (X + w * Y) / w = Y := by rw [Nat.add_mul_div_left _ _ (by omega), Nat.div_eq_of_lt hX, zero_add]
  have lost : ∀ q : ParD, ∃ i < w * h, Lost ((resD E w f q i).mul (resD E w f q i)) := by
    intro q
    refine ⟨X + w * Y, hi, ?_⟩
    unfold resD
    rw [e1, e2]
    exact lost_pixel hz _
  obtain ⟨q, rfl, hq⟩ := loop_inv' s E tol (fun q => q = p)
    (fun q d a b _ hl ha hb => absurd hl (((reduce_lost ha).1 (lost _)).not_lt ((reduce_lost hb).1 (lost _)))) n _ r rfl hr
  rw [hq]
  exact (fit_unfold s).2 ⟨_, hg, rfl⟩

example (r : Res ParD) := C214_lost_pixel_violation (picture_shows 3 2 oddPixels) (by decide) (by decide)
  ⟨id, id, fun _ g => g⟩ 0 1 (by decide) (by decide) (by simp [oddPixels]) 100 (lit 1e-7) r

theorem zeros_sum {l : List Dbl} {v : Dbl} (hb : Brackets Dbl.add l v) (hl : ∀ a ∈ l, a = .num 0) : v = .num 0 := by
  induction hb with
  | one a => exact hl a (by simp)
  | @node l₁ l₂ a b h1 h2 i1 i2 =>
    rw [i1 fun a ha => hl a (by simp [ha]), i2 fun a ha => hl a (by simp [ha])]
    show Dbl.rnd (0 + 0) = .num 0
    rw [add_zero, rnd_of_lt (by rw [dbl_zero, abs_zero]; positivity), dbl_zero]

theorem omp_nil {v : Dbl} (hv : OmpSum [] v) : v = .num 0 := by
  obtain ⟨n, q, hq, hb⟩ := hv
  refine zeros_sum hb fun a ha => ?_
  have := hq.mem_iff.1 ha
  simp at this
  rcases this with h | ⟨-, h⟩ <;> exact h

/-- When the first pixel is NaN, the result is the amplitude NaN at the first pixel with widths of 10, whatever the
other pixels are. -/
theorem C214_first_pixel_violation (s : im.Shows w h f) (hn : 0 < w * h) (hlt : w * h < 2 ^ 31) (E : FitLib)
    (h0 : f 0 0 = .nan) (n : Nat) (tol : Dbl) (r : Res ParD) (hr : FitD E im n tol r) :
    r = .ok ⟨.nan, .num 0, .num 0, .num 10, .num 10, .num 0⟩ := by
  have hw : 0 < w := Nat.pos_of_mul_pos_right hn
  have hh : 0 < h := Nat.pos_of_mul_pos_left hn
  have hr := C214_lost_pixel_violation s hn hlt E 0 0 hw hh (fun v => by rw [h0]; exact Dbl.noConfusion) n tol r hr
  obtain ⟨g, hg, hr⟩ := (fit_unfold s).1 hr
  obtain ⟨m, hm, em, hgi⟩ := guess_iff s hn hlt E
  have hm0 : m = 0 := by
    rw [topIndexD_first s hn h0] at em
    injection em with em
    exact em.symm
  subst hm0
  obtain ⟨z, a, b, c, hz, -, -, -, e⟩ := (hgi g).1 hg
  simp only [Nat.zero_mod, Nat.zero_div, h0] at hz e
  have hnil : ((List.range (w * h)).map (momentAt w f .nan (Dbl.ofNat 0) (Dbl.ofNat 0))).filterMap id = [] := by
    rw [List.filterMap_eq_nil_iff]
    intro x hx
    obtain ⟨i, -, rfl⟩ := List.mem_map.1 hx
    simp only [momentAt, id]
    rw [if_neg (by rw [nan_mul]; exact nan_not_lt _)]
  rw [hnil] at hz
  have hz := omp_nil hz
  subst hz
  subst e
  rw [hr]
  have z0 : Dbl.ofNat 0 = .num 0 := by rw [ofNat_eq (by norm_num)]; simp
  have small : dbl 1e-6 < 10 := by
    have := dbl_mono (show (1e-6 : ℝ) ≤ 1 by norm_num)
    rw [dbl_one] at this
    linarith
  have c0 : 0 < dbl 0.99 := by
    have := dbl_mono (show (1e-6 : ℝ) ≤ 0.99 by norm_num)
    linarith [lit_small_pos]
  have n0 : ¬ (Dbl.num 0).lt (.num 0) := lt_irrefl (0 : ℝ)
  have wid : maxD (lit 1e-6) (.num 10) = .num 10 := by unfold maxD; exact if_pos small
  have cor : maxD (lit (-0.99)) (minD (lit 0.99) (.num 0)) = .num 0 := by
    have h1 : minD (lit 0.99) (.num 0) = .num 0 := by unfold minD; exact if_pos c0
    rw [h1]
    unfold maxD
    refine if_pos ?_
    show dbl (-0.99) < 0
    rw [lit_neg]; linarith
  simp only [shapeD, if_neg n0, wid, cor, z0]

example (r : Res ParD) := C214_first_pixel_violation (picture_shows 2 2 fun x y => if x = 0 ∧ y = 0 then Dbl.nan else .num 7)
  (by decide) (by decide) ⟨id, id, fun _ g => g⟩ (by simp) 100 (lit 1e-7) r

end

end TinyDIP.Sp
