import Verif.Model.HistFlt
import Verif.Lemmas.Flt
import Verif.Props.Hist
import Verif.Props.OtsuFlt

/-!
# Property theorems: shares and bins of a histogram in floating arithmetic (C208)

Full statement of C208: in `double`, the share of a level is the number of its pixels divided by the number of pixels,
correctly rounded, from whichever function it is obtained, and every pixel is counted in the bin whose interval
contains it.

What is missing: `histogram_normalized` adds up rounded shares of one pixel, so its shares drift from the others, and
elements of 64 bits are rounded before their bin is chosen.
-/

namespace TinyDIP.Props

open TinyDIP Image Hist Rnd

/-! ## C208 -/

theorem normalizeDenseF_ok {p n : Nat} {h : List Nat} (hn : h.length = n) (s : Nat) :
    normalizeDenseF p n h s = .ok (h.map fun c : Nat => fl p (fl p (c : ℝ) / fl p (s : ℝ))) := by
  unfold normalizeDenseF forUp
  rw [hn]
  refine loop_listMap h hn (fun c => fl p (fl p (c : ℝ) / fl p (s : ℝ))) _ (List.range n) ?_ (List.replicate n 0)
    List.length_replicate (.refl _)
  intro i hi a ha d hd
  rw [List.mem_range] at hi
  have : vget h i = .ok a := by unfold vget; rw [ha]
  rw [this]
  simp only [Res.ok_bind]
  exact vset_eq_ok _ (by omega)

theorem toProbabilitiesF_ok {p n : Nat} {h : List Nat} (hn : h.length = n) (s : Nat) :
    toProbabilitiesF p n h s = .ok (h.map fun c : Nat => fl p (fl p (c : ℝ) / fl p (s : ℝ))) := by
  unfold toProbabilitiesF forUp
  refine loop_listMap h hn (fun c => fl p (fl p (c : ℝ) / fl p (s : ℝ))) _ (List.range n) ?_ (List.replicate n 0)
    List.length_replicate (.refl _)
  intro i hi a ha d hd
  rw [List.mem_range] at hi
  have : getCountDense h i = .ok a := by unfold getCountDense vget; rw [if_pos (by omega), ha]
  rw [this]
  simp only [Res.ok_bind]
  exact vset_eq_ok _ (by omega)

/-- The counts of the levels as a list. -/
theorem dense_counts (n : Nat) (im : Image Nat) (w h : Nat) (f : Nat → Nat → Nat) (s : im.Shows w h f)
    (hlev : ∀ x y, x < w → y < h → f x y < n) :
    ofImageDense n im = .ok ((List.range n).map fun v => pixelCount w h f fun a => a == v) ∧
      ((List.range n).map fun v => pixelCount w h f fun a => a == v).sum = w * h := by
  have hmem : ∀ v ∈ im.data, v < n := by
    intro v hv
    rw [s.data_eq, List.mem_map] at hv
    obtain ⟨p, hp, rfl⟩ := hv
    rw [mem_iterYX] at hp
    exact hlev _ _ hp.1 hp.2
  have hz : (List.replicate n 0).sum = 0 := by simp
  obtain ⟨out, e, hl, hs, hc⟩ := loop_addDense (β := Nat) id addDense im.data n (fun _ _ _ => rfl) hmem
    (List.replicate n 0) (by simp) (by rw [hz, s.len]; have := s.fits; omega)
  have ho : out = (List.range n).map fun v => pixelCount w h f fun a => a == v := by
    apply List.ext_getElem?
    intro v
    by_cases hv : v < n
    · rw [hc v hv]
      simp only [List.map_id, List.getD_eq_getElem?_getD, List.getElem?_replicate, hv, if_true, Option.getD_some,
        Nat.zero_add, List.getElem?_map, List.getElem?_range hv, Option.map_some]
      rw [List.count_eq_countP, pixelCount_eq s]
    · rw [List.getElem?_eq_none (by omega), List.getElem?_eq_none (by simp; omega)]
  rw [← ho]
  exact ⟨e, by rw [hs, hz, s.len]; omega⟩

theorem share_facts {p : Nat} (hp : 1 ≤ p) {c N : Nat} (hc : c ≤ N) (hN : 0 < N) (hb : N ≤ 2 ^ p) :
    |fl p (fl p (c : ℝ) / fl p (N : ℝ)) - c / N| ≤ 1 / 2 ^ p * (c / N) ∧
    (fl p (fl p (c : ℝ) / fl p (N : ℝ)) = 0 ↔ c = 0) ∧ (fl p (fl p (c : ℝ) / fl p (N : ℝ)) = 1 ↔ c = N) := by
  have hN' : (0 : ℝ) < N := by exact_mod_cast hN
  have h0 : (0 : ℝ) ≤ c / N := by positivity
  have hb' : (N : ℝ) ≤ 2 ^ p := by exact_mod_cast hb
  rw [fl_nat hp (hc.trans hb), fl_nat hp hb]
  have he := fl_err (p := p) ((c : ℝ) / N)
  rw [abs_of_nonneg h0, zpow_neg, zpow_natCast, ← one_div] at he
  have hp2 : (1 : ℝ) / 2 ^ p < 1 := by
    rw [div_lt_one (by positivity)]
    exact_mod_cast Nat.one_lt_two_pow (by omega)
  refine ⟨he, ⟨fun h => ?_, fun h => by rw [h]; simp [fl_zero]⟩, ⟨fun h => ?_, fun h => ?_⟩⟩
  · rw [h, zero_sub, abs_neg, abs_of_nonneg h0] at he
    by_contra hne
    have : (0 : ℝ) < c / N := div_pos (by exact_mod_cast Nat.pos_of_ne_zero hne) hN'
    nlinarith
  · by_contra hne
    have hlt : c + 1 ≤ N := by omega
    have hcN : (c : ℝ) + 1 ≤ N := by exact_mod_cast hlt
    rw [h] at he
    have h1 := abs_le.1 he
    have h2 : (c : ℝ) / N ≤ 1 - 1 / N := by rw [le_sub_iff_add_le, ← add_div, div_le_one hN']; exact hcN
    have h3 : (1 : ℝ) / 2 ^ p ≤ 1 / N := one_div_le_one_div_of_le hN' hb'
    have h4 : (c : ℝ) / N < 1 := lt_of_le_of_lt h2 (by have : (0 : ℝ) < 1 / N := by positivity
                                                       linarith)
    have h5 : (0 : ℝ) < 1 / 2 ^ p := by positivity
    nlinarith [h1.2]
  · rw [h, div_self hN'.ne']
    have := fl_nat (p := p) (n := 1) hp Nat.one_le_two_pow
    simpa using this

/-- `normalize` of a histogram, its vector of probabilities and `normalize_histogram` of its counts, for a picture of at
most `2 ^ p` pixels: the three agree; the share of a level is wrong by at most the factor `1 / 2 ^ p`; it is zero (one)
exactly if no (every) pixel has the level; a level with at least as many pixels has at least as great a share; the
shares sum to one, up to `1 / 2 ^ p`. -/
theorem C208_shares (p : Nat) (hp : 1 ≤ p) (n : Nat) (im : Image Nat) (w h : Nat) (f : Nat → Nat → Nat)
    (s : im.Shows w h f) (hlev : ∀ x y, x < w → y < h → f x y < n) (hN : 0 < w * h) (hb : w * h ≤ 2 ^ p) :
    ∃ (hist : List Nat) (q : Nat → ℝ), ofImageDense n im = .ok hist ∧ (∃ t, CountSumDense hist t) ∧
      (∀ t, CountSumDense hist t →
        normalizeDenseF p n hist t = .ok ((List.range n).map q) ∧
        toProbabilitiesF p n hist t = .ok ((List.range n).map q)) ∧
      (∀ t, StdReduce wadd 0 hist t → normalizeArrayF p hist t = (List.range n).map q) ∧
      (∀ v, |q v - (pixelCount w h f fun a => a == v : Nat) / ((w * h : Nat) : ℝ)| ≤
        1 / 2 ^ p * ((pixelCount w h f fun a => a == v : Nat) / ((w * h : Nat) : ℝ))) ∧
      (∀ v, q v = 0 ↔ ∀ x y, x < w → y < h → f x y ≠ v) ∧
      (∀ v, q v = 1 ↔ ∀ x y, x < w → y < h → f x y = v) ∧
      (∀ u v, (pixelCount w h f fun a => a == u) ≤ (pixelCount w h f fun a => a == v) → q u ≤ q v) ∧
      |((List.range n).map q).sum - 1| ≤ 1 / 2 ^ p := by
  obtain ⟨e, hsum⟩ := dense_counts n im w h f s hlev
  have hfit : ((List.range n).map fun v => pixelCount w h f fun a => a == v).sum < 2 ^ 64 := by
    rw [hsum]; have := s.fits; omega
  have hN' : (0 : ℝ) < ((w * h : Nat) : ℝ) := by exact_mod_cast hN
  have hle : ∀ v, (pixelCount w h f fun a => a == v) ≤ w * h := fun v => pixelCount_le s _
  have hf := fun v => share_facts hp (hle v) hN hb
  have hmap : ∀ g : Nat → ℝ, (((List.range n).map fun v => pixelCount w h f fun a => a == v).map g) =
      (List.range n).map fun v => g (pixelCount w h f fun a => a == v) := fun g => by rw [List.map_map]; rfl
  have hcnt : ∀ v, (pixelCount w h f fun a => a == v) = im.data.countP fun a => a == v := fun v => (pixelCount_eq s _).symm
  have hmem : ∀ a, a ∈ im.data ↔ ∃ x y, x < w ∧ y < h ∧ f x y = a := by
    intro a
    rw [s.data_eq, List.mem_map]
    constructor
    · rintro ⟨q, hq, rfl⟩
      rw [mem_iterYX] at hq
      exact ⟨_, _, hq.1, hq.2, rfl⟩
    · rintro ⟨x, y, hx, hy, rfl⟩
      exact ⟨(x, y), mem_iterYX.2 ⟨hx, hy⟩, rfl⟩
  refine ⟨_, fun v => fl p (fl p ((pixelCount w h f fun a => a == v : Nat) : ℝ) / fl p ((w * h : Nat) : ℝ)), e,
    ⟨_, stdReduce_exists _ _ _⟩, ?_, ?_, fun v => (hf v).1, ?_, ?_, ?_, ?_⟩
  · intro t ht
    have : t = w * h := by rw [reduce_sum ht hfit, hsum]
    subst this
    rw [normalizeDenseF_ok (by simp), toProbabilitiesF_ok (by simp), hmap]
    exact ⟨rfl, rfl⟩
  · intro t ht
    have : t = w * h := by rw [reduce_sum ht hfit, hsum]
    subst this
    unfold normalizeArrayF
    rw [hmap]
  · intro v
    rw [(hf v).2.1, hcnt, List.countP_eq_zero]
    constructor
    · intro hz x y hx hy he
      have := hz (f x y) ((hmem _).2 ⟨x, y, hx, hy, rfl⟩)
      simp [he] at this
    · intro hz a ha
      obtain ⟨x, y, hx, hy, rfl⟩ := (hmem a).1 ha
      simpa using hz x y hx hy
  · intro v
    rw [(hf v).2.2, hcnt, ← s.len, List.countP_eq_length]
    constructor
    · intro hz x y hx hy
      simpa using hz (f x y) ((hmem _).2 ⟨x, y, hx, hy, rfl⟩)
    · intro hz a ha
      obtain ⟨x, y, hx, hy, rfl⟩ := (hmem a).1 ha
      simpa using hz x y hx hy
  · intro u v huv
    simp only
    rw [fl_nat hp ((hle u).trans hb), fl_nat hp ((hle v).trans hb), fl_nat hp hb]
    refine fl_mono hp ?_
    exact div_le_div_of_nonneg_right (by exact_mod_cast huv) hN'.le
  · have h1 : ((List.range n).map fun v => ((pixelCount w h f fun a => a == v : Nat) : ℝ) / ((w * h : Nat) : ℝ)).sum = 1 := by
      have := sum_map_div (P := ℝ) ((List.range n).map fun v => pixelCount w h f fun a => a == v) ((w * h : Nat) : ℝ)
      rw [hsum, div_self hN'.ne', List.map_map] at this
      exact this
    have gen : ∀ l : List Nat, |(l.map fun v => fl p (fl p ((pixelCount w h f fun a => a == v : Nat) : ℝ) /
        fl p ((w * h : Nat) : ℝ))).sum - (l.map fun v => ((pixelCount w h f fun a => a == v : Nat) : ℝ) /
          ((w * h : Nat) : ℝ)).sum| ≤ 1 / 2 ^ p * (l.map fun v => ((pixelCount w h f fun a => a == v : Nat) : ℝ) /
          ((w * h : Nat) : ℝ)).sum := by
      intro l
      induction l with
      | nil => simp
      | cons a l ih =>
        simp only [List.map_cons, List.sum_cons]
        have h2 := (hf a).1
        rw [abs_le] at ih h2 ⊢
        constructor <;> linarith [ih.1, ih.2, h2.1, h2.2]
    have := gen (List.range n)
    rwa [h1, mul_one] at this

example := C208_shares 53 (by decide) 17 _ 3 2 _ sample2_shows (fun x y hx hy => by omega) (by norm_num) (by norm_num)

theorem loop_normalizedF (g : ℝ → ℝ) (l : List Nat) (n : Nat) (hl : ∀ v ∈ l, v < n) : ∀ h : List ℝ, h.length = n →
    ∃ out, loop (fun out v => do
        let x ← vget out v
        vset out v (g x)) l h = .ok out ∧ out.length = n ∧
      ∀ v, v < n → out[v]? = some (g^[l.count v] (h.getD v 0)) := by
  induction l with
  | nil =>
    intro h hn
    refine ⟨h, rfl, hn, fun v hv => ?_⟩
    have : v < h.length := by omega
    simp [this, List.getD_eq_getElem?_getD]
  | cons b l ih =>
    intro h hn
    have hb : b < h.length := by have := hl b (by simp); omega
    obtain ⟨out, e, ho, hc⟩ := ih (fun v hv => hl v (by simp [hv])) (h.set b (g h[b])) (by simpa using hn)
    refine ⟨out, ?_, ho, ?_⟩
    · rw [loop, vget_eq_ok hb]
      simp only [Res.ok_bind, vset_eq_ok _ hb]
      exact e
    · intro v hv
      rw [hc v hv]
      simp only [List.getD_eq_getElem?_getD, List.getElem?_set, List.count_cons]
      by_cases hbv : b = v
      · subst hbv
        simp [hb, Function.iterate_succ_apply]
      · simp [hbv]

/-- What `histogram_normalized` computes for a level with `c` of `N` pixels. -/
theorem normalizedDenseF_eq (p n : Nat) (im : Image Nat) (w h : Nat) (f : Nat → Nat → Nat) (s : im.Shows w h f)
    (hlev : ∀ x y, x < w → y < h → f x y < n) :
    ∃ out, normalizedDenseF p n im = .ok out ∧ out.length = n ∧ ∀ v, v < n → out[v]? =
      some ((fun x => fl p (x + fl p (1 / fl p ((w * h : Nat) : ℝ))))^[pixelCount w h f fun a => a == v] 0) := by
  unfold normalizedDenseF
  rw [s.count]
  obtain ⟨out, e, hl, hc⟩ := loop_normalizedF (fun x => fl p (x + fl p (1 / fl p ((w * h : Nat) : ℝ)))) im.data n (by
    intro v hv
    rw [s.data_eq, List.mem_map] at hv
    obtain ⟨p, hp, rfl⟩ := hv
    rw [mem_iterYX] at hp
    exact hlev _ _ hp.1 hp.2) (List.replicate n 0) (by simp)
  refine ⟨out, e, hl, fun v hv => ?_⟩
  rw [hc v hv, ← pixelCount_eq s, ← List.count_eq_countP]
  simp [List.getD_eq_getElem?_getD, hv]

theorem accumulate_err {p : Nat} {c : ℝ} (hc : 0 ≤ c) (k : Nat) :
    |(fun x => fl p (x + c))^[k] 0 - k * c| ≤ growth p k * (k * c) := by
  induction k with
  | zero => simp
  | succ k ih =>
    rw [Function.iterate_succ_apply']
    set z := (fun x => fl p (x + c))^[k] 0 with hz
    have hk : (0 : ℝ) ≤ k * c := by positivity
    have hg := growth_nonneg (p := p) k
    have := fl_add_err (p := p) (a := z) (b := c) (S := k * c) (T := c) (A := k * c) (B := c) (k := k)
      ih (by rw [sub_self, abs_zero]; positivity) (by rw [abs_of_nonneg hk]) (by rw [abs_of_nonneg hc])
    have e : ((k + 1 : Nat) : ℝ) * c = k * c + c := by push_cast; ring
    rw [e]
    exact this

/-- `histogram_normalized` of a picture of at most `2 ^ p` pixels: a level with `k` of the `N` pixels gets `k / N`, wrong
by at most the factor `(1 + 1 / 2 ^ p) ^ (k + 1) - 1`; if the number of pixels is a power of two, exactly `k / N`.
Missing: the correctly rounded share for other numbers of pixels, see `C208_normalized_violation`. -/
theorem C208_normalized_partial (p : Nat) (hp : 1 ≤ p) (n : Nat) (im : Image Nat) (w h : Nat) (f : Nat → Nat → Nat)
    (s : im.Shows w h f) (hlev : ∀ x y, x < w → y < h → f x y < n) (hN : 0 < w * h) (hb : w * h ≤ 2 ^ p) :
    ∃ out, normalizedDenseF p n im = .ok out ∧ out.length = n ∧
      ∀ v, v < n → ∃ x, out[v]? = some x ∧
        |x - (pixelCount w h f fun a => a == v : Nat) / ((w * h : Nat) : ℝ)| ≤
          ((1 + 1 / 2 ^ p) ^ ((pixelCount w h f fun a => a == v) + 1) - 1) *
            ((pixelCount w h f fun a => a == v : Nat) / ((w * h : Nat) : ℝ)) ∧
        ((∃ k : Nat, w * h = 2 ^ k) → x = (pixelCount w h f fun a => a == v : Nat) / ((w * h : Nat) : ℝ)) := by
  obtain ⟨out, e, hl, hc⟩ := normalizedDenseF_eq p n im w h f s hlev
  have hN' : (0 : ℝ) < ((w * h : Nat) : ℝ) := by exact_mod_cast hN
  refine ⟨out, e, hl, fun v hv => ⟨_, hc v hv, ?_, ?_⟩⟩
  · rw [fl_nat hp hb]
    generalize (pixelCount w h f fun a => a == v) = k
    set N : ℝ := ((w * h : Nat) : ℝ) with hNd
    have h0 : (0 : ℝ) ≤ 1 / N := by positivity
    have h1 := fl_err (p := p) (1 / N)
    rw [abs_of_nonneg h0] at h1
    have hd : 0 ≤ fl p (1 / N) := fl_nonneg h0
    have h2 := accumulate_err (p := p) hd k
    have hu : ulp1 p = 1 / 2 ^ p := by unfold ulp1; rw [zpow_neg, zpow_natCast, one_div]
    change |fl p (1 / N) - 1 / N| ≤ ulp1 p * (1 / N) at h1
    have hg := growth_nonneg (p := p) k
    have hup := ulp1_pos (p := p)
    have e1 : ((1 : ℝ) + 1 / 2 ^ p) ^ (k + 1) - 1 = growth p k + ulp1 p * (1 + growth p k) := by
      rw [← growth_succ]; unfold growth; rw [hu]
    rw [e1, div_eq_mul_one_div (k : ℝ) N]
    set d := fl p (1 / N)
    set z := (fun x => fl p (x + d))^[k] 0
    have hk : (0 : ℝ) ≤ k := by positivity
    rw [abs_le] at h1 h2 ⊢
    have a1 : (k : ℝ) * d ≤ k * ((1 + ulp1 p) * (1 / N)) := mul_le_mul_of_nonneg_left (by linarith) hk
    have a2 : (k : ℝ) * ((1 - ulp1 p) * (1 / N)) ≤ k * d := mul_le_mul_of_nonneg_left (by linarith) hk
    have a3 : growth p k * (k * d) ≤ growth p k * (k * ((1 + ulp1 p) * (1 / N))) := mul_le_mul_of_nonneg_left a1 hg
    constructor <;> nlinarith [h2.1, h2.2]
  · rintro ⟨m, hm⟩
    rw [fl_nat hp hb]
    have hle : (pixelCount w h f fun a => a == v) ≤ 2 ^ p := (pixelCount_le s _).trans hb
    have e2 : (1 : ℝ) / ((w * h : Nat) : ℝ) = ((1 : Nat) : ℝ) * (2 : ℝ) ^ (-(m : ℤ)) := by
      rw [hm]; push_cast; rw [zpow_neg, zpow_natCast]; simp
    have e3 : ∀ k : Nat, ((k : Nat) : ℝ) / ((w * h : Nat) : ℝ) = (k : ℝ) * (2 : ℝ) ^ (-(m : ℤ)) := by
      intro k; rw [hm]; push_cast; rw [zpow_neg, zpow_natCast]; rfl
    have e4 : ∀ k : Nat, k ≤ 2 ^ p → fl p ((k : ℝ) * (2 : ℝ) ^ (-(m : ℤ))) = (k : ℝ) * (2 : ℝ) ^ (-(m : ℤ)) :=
      fun k hk => fl_of_rep hp ((rep_nat hk).mul_pow _)
    rw [e2, e4 1 Nat.one_le_two_pow, e3]
    revert hle
    generalize (pixelCount w h f fun a => a == v) = k
    intro hle
    induction k with
    | zero => simp
    | succ k ih =>
      rw [Function.iterate_succ_apply', ih (by omega)]
      rw [← add_mul, ← Nat.cast_add]
      exact e4 _ hle

example := C208_normalized_partial 53 (by decide) 17 _ 3 2 _ sample2_shows (fun x y hx hy => by omega) (by norm_num) (by norm_num)

theorem fl53_tie : fl 53 (18014398509481983 * (2 : ℝ) ^ (-55 : ℤ)) = 1 / 2 := by
  have : fl 53 (18014398509481983 * (2 : ℝ) ^ (-55 : ℤ)) = ((9007199254740992 : ℤ) : ℝ) * (2 : ℝ) ^ ((-2 : ℤ) + 1 - (53 : Nat)) := by
    refine fl_eq_of (by rw [abs_of_pos (by positivity)]; norm_num) (by rw [abs_of_pos (by positivity)]; norm_num) ?_
    have e1 : (18014398509481983 * (2 : ℝ) ^ (-55 : ℤ)) / (2 : ℝ) ^ ((-2 : ℤ) + 1 - (53 : Nat)) = 9007199254740991 + 1 / 2 := by
      norm_num
    rw [e1]
    have hf : ⌊(9007199254740991 + 1 / 2 : ℝ)⌋ = 9007199254740991 := by
      rw [Int.floor_eq_iff]; constructor <;> norm_num
    unfold roundEven
    rw [hf]
    norm_num
  rw [this]; norm_num

/-- The shares drift: in a picture of 3 × 2 pixels of one level the level gets all of the shares from `normalize`, but
less than one from `histogram_normalized`. -/
theorem C208_normalized_violation :
    ∃ out, normalizedDenseF 53 256 (picture 3 2 fun _ _ => 7) = .ok out ∧
      out[7]? = some (9007199254740991 / 9007199254740992) ∧
      ∃ hist, ofImageDense 256 (picture 3 2 fun _ _ => 7) = .ok hist ∧
        ∀ t, CountSumDense hist t → ∃ q, normalizeDenseF 53 256 hist t = .ok q ∧ q[7]? = some 1 := by
  have s := picture_shows 3 2 (fun _ _ => 7)
  obtain ⟨out, e, _, hc⟩ := normalizedDenseF_eq 53 256 _ 3 2 _ s (fun _ _ _ _ => by norm_num)
  obtain ⟨hist, q, e1, _, h1, _, _, _, hone, _⟩ := C208_shares 53 (by decide) 256 _ 3 2 _ s (fun _ _ _ _ => by norm_num)
    (by norm_num) (by norm_num)
  refine ⟨out, e, ?_, hist, e1, fun t ht => ⟨_, (h1 t ht).1, ?_⟩⟩
  · rw [hc 7 (by norm_num)]
    have hk : (pixelCount 3 2 (fun _ _ => 7) fun a => a == 7) = 6 := by decide
    rw [hk]
    have f6 : fl 53 ((3 * 2 : Nat) : ℝ) = 6 := by rw [fl_nat (by decide) (by norm_num)]; norm_num
    have d : fl 53 (1 / 6) = ((6004799503160661 : ℤ) : ℝ) * (2 : ℝ) ^ ((-3 : ℤ) + 1 - (53 : Nat)) :=
      Filter.fl53_of (-3) 6004799503160661 (by norm_num) (by norm_num) (by rw [abs_lt]; constructor <;> norm_num)
    rw [f6, d]
    have s1 : fl 53 (0 + ((6004799503160661 : ℤ) : ℝ) * (2 : ℝ) ^ ((-3 : ℤ) + 1 - (53 : Nat))) =
        ((6004799503160661 : ℤ) : ℝ) * (2 : ℝ) ^ (-55 : ℤ) :=
      fl_exact 6004799503160661 (-55) (by norm_num) (by norm_num)
    have s2 : fl 53 (((6004799503160661 : ℤ) : ℝ) * (2 : ℝ) ^ (-55 : ℤ) + ((6004799503160661 : ℤ) : ℝ) * (2 : ℝ) ^ ((-3 : ℤ) + 1 - (53 : Nat))) =
        ((6004799503160661 : ℤ) : ℝ) * (2 : ℝ) ^ (-54 : ℤ) :=
      fl_exact 6004799503160661 (-54) (by norm_num) (by norm_num)
    have s3 : fl 53 (((6004799503160661 : ℤ) : ℝ) * (2 : ℝ) ^ (-54 : ℤ) + ((6004799503160661 : ℤ) : ℝ) * (2 : ℝ) ^ ((-3 : ℤ) + 1 - (53 : Nat))) = 1 / 2 := by
      rw [show (((6004799503160661 : ℤ) : ℝ) * (2 : ℝ) ^ (-54 : ℤ) + ((6004799503160661 : ℤ) : ℝ) *
        (2 : ℝ) ^ ((-3 : ℤ) + 1 - (53 : Nat))) = 18014398509481983 * (2 : ℝ) ^ (-55 : ℤ) by norm_num]
      exact fl53_tie
    have s4 : fl 53 (1 / 2 + ((6004799503160661 : ℤ) : ℝ) * (2 : ℝ) ^ ((-3 : ℤ) + 1 - (53 : Nat))) =
        ((6004799503160661 : ℤ) : ℝ) * (2 : ℝ) ^ ((-1 : ℤ) + 1 - (53 : Nat)) :=
      Filter.fl53_of (-1) _ (by norm_num) (by norm_num) (by rw [abs_lt]; constructor <;> norm_num)
    have s5 : fl 53 (((6004799503160661 : ℤ) : ℝ) * (2 : ℝ) ^ ((-1 : ℤ) + 1 - (53 : Nat)) + ((6004799503160661 : ℤ) : ℝ) * (2 : ℝ) ^ ((-3 : ℤ) + 1 - (53 : Nat))) =
        ((7505999378950826 : ℤ) : ℝ) * (2 : ℝ) ^ ((-1 : ℤ) + 1 - (53 : Nat)) :=
      Filter.fl53_of (-1) _ (by norm_num) (by norm_num) (by rw [abs_lt]; constructor <;> norm_num)
    have s6 : fl 53 (((7505999378950826 : ℤ) : ℝ) * (2 : ℝ) ^ ((-1 : ℤ) + 1 - (53 : Nat)) + ((6004799503160661 : ℤ) : ℝ) * (2 : ℝ) ^ ((-3 : ℤ) + 1 - (53 : Nat))) =
        ((9007199254740991 : ℤ) : ℝ) * (2 : ℝ) ^ ((-1 : ℤ) + 1 - (53 : Nat)) :=
      Filter.fl53_of (-1) _ (by norm_num) (by norm_num) (by rw [abs_lt]; constructor <;> norm_num)
    simp only [Function.iterate_succ_apply, Function.iterate_zero_apply]
    rw [s1, s2, s3, s4, s5, s6]
    norm_num
  · rw [List.getElem?_map, List.getElem?_range (by norm_num), Option.map_some, (hone 7).2 (fun _ _ _ _ => rfl)]

/-- The rounded quotient of two whole numbers has the whole part of the exact one. -/
theorem floor_fl_div {p : Nat} (hp : 1 ≤ p) {a b : Nat} (hb : 0 < b) (ha : a < 2 ^ p) :
    ⌊fl p ((a : ℝ) / b)⌋ = ⌊(a : ℝ) / b⌋ := by
  have hb' : (0 : ℝ) < b := by exact_mod_cast hb
  have hq : ⌊(a : ℝ) / b⌋ = ((a / b : Nat) : ℤ) := by
    rw [Int.floor_eq_iff]
    have h1 := Nat.div_mul_le_self a b
    have h2 := Nat.lt_div_mul_add hb (a := a)
    constructor
    · rw [le_div_iff₀ hb']; exact_mod_cast h1
    · rw [div_lt_iff₀ hb', add_mul, one_mul]; exact_mod_cast h2
  rw [hq, Int.floor_eq_iff]
  set k := a / b with hk
  have h1 : k * b ≤ a := Nat.div_mul_le_self a b
  have h2 : a + 1 ≤ k * b + b := Nat.lt_div_mul_add hb (a := a)
  have hka : k ≤ 2 ^ p := (Nat.div_le_self a b).trans ha.le
  constructor
  · have := fl_mono (p := p) hp (x := (k : ℝ)) (y := (a : ℝ) / b) (by rw [le_div_iff₀ hb']; exact_mod_cast h1)
    rw [fl_nat hp hka] at this
    exact_mod_cast this
  · have he := fl_err (p := p) ((a : ℝ) / b)
    rw [abs_of_nonneg (show (0 : ℝ) ≤ (a : ℝ) / b by positivity), zpow_neg, zpow_natCast] at he
    have h3 : (a : ℝ) + 1 ≤ (k + 1) * b := by rw [add_mul, one_mul]; exact_mod_cast h2
    have h4 : (a : ℝ) / b + 1 / b ≤ k + 1 := by rw [← add_div, div_le_iff₀ hb']; exact h3
    have h5 : ((2 : ℝ) ^ p)⁻¹ * (a / b) < 1 / b := by
      rw [← mul_div_assoc]
      refine div_lt_div_of_pos_right ?_ hb'
      rw [inv_mul_lt_iff₀ (by positivity), mul_one]
      exact_mod_cast ha
    have := (abs_le.1 he).2
    push_cast
    linarith

open Classical in
/-- `histogram_with_bins` of unsigned elements over a range that starts at zero, with `max * bins` below `2 ^ p` (for
`double`: all ranges of 8, 16 and 32 bits with up to two million bins): every bin counts exactly the pixels in its
interval, every pixel lies in exactly one bin, and the counts sum to the number of pixels, as in exact arithmetic.
Missing: greater elements, see `C208_bins_violation`, and ranges that do not start at zero, see C33. -/
theorem C208_bins_partial {K : Type} (p : Nat) (hp : 1 ≤ p) (num : K → Nat) (bins : Nat) (hb : 0 < bins)
    (hb64 : bins < 2 ^ 64) (im : Image K) (w h : Nat) (f : Nat → Nat → K) (s : im.Shows w h f) (lowest max : K)
    (hlow : num lowest = 0) (hmax : 0 < num max) (hbig : num max * bins < 2 ^ p)
    (hr : ∀ x y, x < w → y < h → num (f x y) ≤ num max) :
    ∃ out, withBinsF p (fun k => (num k : ℝ)) bins im lowest max = .ok out ∧ out.length = bins ∧ out.sum = w * h ∧
      (∀ b, b < bins → out[b]? = some (pixelCount w h f fun v =>
        decide (InBin bins (num lowest : ℝ) (num max) (num v) b))) ∧
      ∀ x y, x < w → y < h → ∃! b, b < bins ∧ InBin bins (num lowest : ℝ) (num max) (num (f x y)) b := by
  have key : withBinsF p (fun k => (num k : ℝ)) bins im lowest max = withBins (fun k => (num k : ℝ)) bins im lowest max := by
    unfold withBinsF withBins
    refine loop_congr (fun v hv out => ?_) _
    rw [s.data_eq, List.mem_map] at hv
    obtain ⟨q, hq, rfl⟩ := hv
    rw [mem_iterYX] at hq
    have hv := hr _ _ hq.1 hq.2
    generalize f q.1 q.2 = v at hv
    have hm : num max ≤ 2 ^ p := (Nat.le_mul_of_pos_right _ hb).trans hbig.le
    have hbn : bins ≤ 2 ^ p := (Nat.le_mul_of_pos_left _ hmax).trans hbig.le
    have hvb : num v * bins < 2 ^ p := (Nat.mul_le_mul_right _ hv).trans_lt hbig
    have : binIndexF p bins (num lowest : ℝ) (num max) (num v) = binIndex bins (num lowest : ℝ) (num max) (num v) := by
      unfold binIndexF binIndex
      simp only
      rw [hlow, Nat.cast_zero, fl_zero, fl_nat hp hm, fl_nat hp hbn, fl_nat hp (hv.trans hm), sub_zero, fl_nat hp hm,
        ← Nat.cast_mul, fl_nat hp hvb.le, floor_fl_div hp hmax hvb]
    rw [this]
  rw [key]
  exact C33_partial (fun k => (num k : ℝ)) bins hb hb64 im w h f s lowest max (by simp [hlow]) (by exact_mod_cast hmax)
    (fun x y hx hy => ⟨by positivity, by exact_mod_cast hr x y hx hy⟩)

example := C208_bins_partial (K := Nat) 53 (by decide) id 8 (by decide) (by decide) _ 3 2 _ sample2_shows 0 255 rfl
  (by decide) (by decide) (fun x y hx hy => by simp only [id]; omega)

/-- Elements of 64 bits: of two bins over all of `uint64_t`, the pixel with the value `2 ^ 63 - 1`, in the lower half,
is counted in the upper one. -/
theorem C208_bins_violation :
    withBinsF 53 (fun k : Nat => (k : ℝ)) 2 (picture 1 1 fun _ _ => 2 ^ 63 - 1) 0 (2 ^ 64 - 1) = .ok [0, 1] ∧
      InBin 2 ((0 : Nat) : ℝ) ((2 ^ 64 - 1 : Nat) : ℝ) ((2 ^ 63 - 1 : Nat) : ℝ) 0 := by
  constructor
  · have hd : (picture 1 1 fun _ _ => 2 ^ 63 - 1 : Image Nat).data = [2 ^ 63 - 1] := rfl
    have a1 : fl 53 (((2 ^ 64 - 1 : Nat)) : ℝ) = 2 ^ 64 := by
      have := Filter.fl53_of (x := ((2 ^ 64 - 1 : Nat) : ℝ)) 63 9007199254740992 (by norm_num) (by norm_num) (by rw [abs_lt]; constructor <;> norm_num)
      rw [this]; norm_num
    have a2 : fl 53 (((2 ^ 63 - 1 : Nat)) : ℝ) = 2 ^ 63 := by
      have := Filter.fl53_of (x := ((2 ^ 63 - 1 : Nat) : ℝ)) 62 9007199254740992 (by norm_num) (by norm_num) (by rw [abs_lt]; constructor <;> norm_num)
      rw [this]; norm_num
    have a3 : fl 53 ((2 : ℝ) ^ 64) = 2 ^ 64 := by
      have := fl_exact (x := (2 : ℝ) ^ 64) 1 64 (by norm_num) (by norm_num)
      rw [this]; norm_num
    have a4 : fl 53 ((2 : Nat) : ℝ) = 2 := by rw [fl_nat (by decide) (by norm_num)]; norm_num
    have a5 : fl 53 ((1 : ℝ)) = 1 := by have := fl_nat (p := 53) (n := 1) (by decide) (by norm_num); simpa using this
    have hbi : binIndexF 53 2 ((0 : Nat) : ℝ) ((2 ^ 64 - 1 : Nat) : ℝ) ((2 ^ 63 - 1 : Nat) : ℝ) = .ok 1 := by
      unfold binIndexF
      simp only
      rw [a1, a2, a4, Nat.cast_zero, fl_zero, sub_zero, a3, show (2 : ℝ) ^ 63 * 2 = 2 ^ 64 by norm_num, a3,
        div_self (by norm_num), a5, if_neg (by norm_num)]
      simp [floorToSize]
    unfold withBinsF
    rw [hd]
    simp only [loop, hbi, Res.ok_bind]
    rfl
  · unfold InBin
    norm_num

end TinyDIP.Props
