import Verif.Lemmas.Rounding
import Verif.Model.Rounded
import Verif.Spec.Rounded
import Verif.Lemmas.Interp
import Verif.Lemmas.Resample
import Verif.Lemmas.Color
import Mathlib.Analysis.Real.Pi.Bounds
import Mathlib.Analysis.SpecialFunctions.Trigonometric.Bounds

/-!
# Lemmas on functions in double precision
-/

namespace TinyDIP.Rnd

open TinyDIP

/-- `2 ^ -53`. -/
noncomputable def eps : ℝ := 1 / 2 ^ 53

theorem eps_pos : 0 < eps := by unfold eps; positivity

theorem eps_small : eps ≤ 1 / 2 ^ 53 := le_rfl

theorem dbl_err (x : ℝ) : |dbl x - x| ≤ eps * |x| := by
  have := fl_err (p := 53) x
  have e : (2 : ℝ) ^ (-((53 : Nat) : ℤ)) = eps := by
    unfold eps; rw [zpow_neg, zpow_natCast]; norm_num
  rw [e] at this
  exact this

theorem dbl_bounds {x : ℝ} (hx : 0 ≤ x) : (1 - eps) * x ≤ dbl x ∧ dbl x ≤ (1 + eps) * x := by
  have := dbl_err x
  rw [abs_of_nonneg hx, abs_le] at this
  constructor <;> linarith [this.1, this.2]

theorem dbl_nonneg {x : ℝ} (hx : 0 ≤ x) : 0 ≤ dbl x := fl_nonneg hx

theorem dbl_mono {x y : ℝ} (h : x ≤ y) : dbl x ≤ dbl y := fl_mono (by norm_num) h

theorem dbl_nat {n : Nat} (h : n ≤ 2 ^ 53) : dbl n = n := fl_nat (by norm_num) h

theorem dbl_of_rep {x : ℝ} (h : Rep 53 x) : dbl x = x := fl_of_rep (by norm_num) h

theorem dbl_zero : dbl 0 = 0 := fl_zero

theorem dbl_one : dbl 1 = 1 := by
  have := dbl_nat (n := 1) (by norm_num)
  simpa using this

theorem dbl_rep (x : ℝ) : Rep 53 (dbl x) := fl_rep x

theorem dbl_le_nat {x : ℝ} {n : Nat} (hn : n ≤ 2 ^ 53) (h : x ≤ n) : dbl x ≤ n := by
  have := dbl_mono h
  rwa [dbl_nat hn] at this

theorem nat_le_dbl {x : ℝ} {n : Nat} (hn : n ≤ 2 ^ 53) (h : (n : ℝ) ≤ x) : (n : ℝ) ≤ dbl x := by
  have := dbl_mono h
  rwa [dbl_nat hn] at this

/-! ### Resizing -/

theorem source_bounds {old new x : Nat} (h0 : 0 < old) (ho : old ≤ 2 ^ 53) (hn : new ≤ 2 ^ 53) (hx : x < new) :
    let v := dbl (dbl x * ratioD old new)
    let q : ℝ := (x : ℝ) * old / new
    0 ≤ v ∧ (1 - eps) ^ 2 * q ≤ v ∧ v ≤ (1 + eps) ^ 2 * q := by
  have hn0 : (0 : ℝ) < new := by exact_mod_cast (by omega : 0 < new)
  have ex : dbl x = x := dbl_nat (by omega)
  have eo : dbl old = old := dbl_nat ho
  have en : dbl new = new := dbl_nat hn
  have hr0 : (0 : ℝ) ≤ (old : ℝ) / new := by positivity
  have hr : ratioD old new = dbl ((old : ℝ) / new) := by unfold ratioD; rw [eo, en]
  obtain ⟨r1, r2⟩ := dbl_bounds hr0
  have hx0 : (0 : ℝ) ≤ x := by positivity
  have hd0 := dbl_nonneg hr0
  have he := eps_pos
  have he1 : eps ≤ 1 / 2 := by unfold eps; norm_num
  have hv0 : (0 : ℝ) ≤ (x : ℝ) * dbl ((old : ℝ) / new) := by positivity
  obtain ⟨v1, v2⟩ := dbl_bounds hv0
  dsimp only
  rw [ex, hr]
  have hq : (x : ℝ) * old / new = x * ((old : ℝ) / new) := by ring
  rw [hq]
  refine ⟨dbl_nonneg hv0, ?_, ?_⟩
  · calc (1 - eps) ^ 2 * ((x : ℝ) * ((old : ℝ) / new)) = (1 - eps) * (x * ((1 - eps) * ((old : ℝ) / new))) := by ring
      _ ≤ (1 - eps) * (x * dbl ((old : ℝ) / new)) := by
          refine mul_le_mul_of_nonneg_left (mul_le_mul_of_nonneg_left r1 hx0) (by linarith)
      _ ≤ _ := v1
  · calc _ ≤ (1 + eps) * (x * dbl ((old : ℝ) / new)) := v2
      _ ≤ (1 + eps) * (x * ((1 + eps) * ((old : ℝ) / new))) := by
          refine mul_le_mul_of_nonneg_left (mul_le_mul_of_nonneg_left r2 hx0) (by linarith)
      _ = _ := by ring

theorem source_lt {old new x : Nat} (h0 : 0 < old) (ho : old ≤ 2 ^ 53) (hn : new ≤ 2 ^ 52) (hx : x < new) :
    ∃ i, sourceD old new x = .ok i ∧ i = ⌊dbl (dbl x * ratioD old new)⌋₊ ∧ i < old := by
  obtain ⟨h1, -, h3⟩ := source_bounds h0 ho (by omega) hx
  have hn0 : (0 : ℝ) < new := by exact_mod_cast (by omega : 0 < new)
  have ho0 : (0 : ℝ) < old := by exact_mod_cast h0
  have hlt : dbl (dbl x * ratioD old new) < old := by
    refine lt_of_le_of_lt h3 ?_
    have hx' : (x : ℝ) ≤ new - 1 := by
      have : x + 1 ≤ new := hx
      have : (x : ℝ) + 1 ≤ new := by exact_mod_cast this
      linarith
    have h4 : (x : ℝ) * old / new ≤ (1 - 2 * eps) * old := by
      have hi : (2 : ℝ) * eps * new ≤ 1 := by
        have : (new : ℝ) ≤ 2 ^ 52 := by exact_mod_cast hn
        unfold eps
        nlinarith
      rw [div_le_iff₀ hn0]
      nlinarith
    have he := eps_pos
    have he1 : eps ≤ 1 / 2 := by unfold eps; norm_num
    calc (1 + eps) ^ 2 * ((x : ℝ) * old / new) ≤ (1 + eps) ^ 2 * ((1 - 2 * eps) * old) := by gcongr
      _ = (1 - 3 * eps ^ 2 - 2 * eps ^ 3) * old := by ring
      _ < 1 * old := by
          have : 0 < eps ^ 2 := by positivity
          have : 0 < eps ^ 3 := by positivity
          refine mul_lt_mul_of_pos_right (by linarith) ho0
      _ = old := one_mul _
  refine ⟨_, ?_, rfl, ?_⟩
  · unfold sourceD
    refine toSize_ok h1 (hlt.trans_le ?_)
    have : (old : ℝ) ≤ 2 ^ 53 := by exact_mod_cast ho
    refine this.trans (by norm_num)
  · exact (Nat.floor_lt h1).2 hlt

/-- A value close to the exact proportional position truncates to that position or the one before. -/
theorem near_of_bounds {old new x : Nat} {e v : ℝ} (h0 : 0 < old) (hx : x < new) (he : 0 < e) (he1 : e ≤ 1 / 2)
    (hm : (old : ℝ) * new * (4 * e) ≤ 1) (h1 : 0 ≤ v) (h2 : (1 - e) ^ 2 * ((x : ℝ) * old / new) ≤ v)
    (h3 : v ≤ (1 + e) ^ 2 * ((x : ℝ) * old / new)) : Near old new x ⌊v⌋₊ := by
  have hn1 : 0 < new := by omega
  have hn0 : (0 : ℝ) < new := by exact_mod_cast hn1
  have ho0 : (0 : ℝ) < old := by exact_mod_cast h0
  set q : ℝ := (x : ℝ) * old / new with hq
  have hq0 : 0 ≤ q := by positivity
  -- the error is less than one part in `new`
  have herr : q * (3 * e) < 1 / new := by
    have hx' : (x : ℝ) ≤ new := by exact_mod_cast hx.le
    have hqo : q ≤ old := by
      rw [hq, div_le_iff₀ hn0]
      nlinarith
    rw [lt_div_iff₀ hn0]
    have h5 : q * new ≤ old * new := by gcongr
    have h6 : q * (3 * e) * new ≤ old * new * (3 * e) := by nlinarith
    have h7 : 0 < (old : ℝ) * new * e := by positivity
    nlinarith
  have hlo : q - 1 / new < v := by
    have : (1 - e) ^ 2 * q ≥ q - q * (3 * e) := by nlinarith [mul_nonneg hq0 he.le, sq_nonneg e]
    linarith
  have hhi : v < q + 1 / new := by
    have : (1 + e) ^ 2 * q ≤ q + q * (3 * e) := by
      nlinarith [mul_nonneg hq0 he.le, mul_nonneg (mul_nonneg hq0 he.le) (show 0 ≤ 1 - e by linarith)]
    linarith
  -- quotient and remainder
  set n := x * old / new with hndef
  set r := x * old % new with hrdef
  have hdiv : x * old = new * n + r := (Nat.div_add_mod (x * old) new).symm
  have hrlt : r < new := Nat.mod_lt _ hn1
  have hqe : q = n + (r : ℝ) / new := by
    have : (x : ℝ) * old = new * n + r := by exact_mod_cast hdiv
    rw [hq, this]; field_simp
  have hr1 : (r : ℝ) / new + 1 / new ≤ 1 := by
    rw [← add_div, div_le_one hn0]
    exact_mod_cast hrlt
  have hup : v < n + 1 := by linarith
  rcases Nat.eq_zero_or_pos r with hr0 | hrpos
  · have hq' : q = n := by rw [hqe, hr0]; simp
    rcases le_or_gt (n : ℝ) v with hge | hlt
    · left
      rw [Nat.floor_eq_iff h1]
      exact ⟨hge, by exact_mod_cast hup⟩
    · right
      have hnpos : 1 ≤ n := by
        by_contra hc
        have h00 : n = 0 := Nat.lt_one_iff.1 (not_le.1 hc)
        rw [h00] at hlt
        simp at hlt
        linarith
      refine ⟨Nat.dvd_of_mod_eq_zero hr0, ?_⟩
      have : ⌊v⌋₊ = n - 1 := by
        rw [Nat.floor_eq_iff h1]
        have e : ((n - 1 : Nat) : ℝ) = n - 1 := by
          rw [Nat.cast_sub hnpos]; simp
        rw [e]
        have hone : (1 : ℝ) / new ≤ 1 := by
          rw [div_le_one hn0]; exact_mod_cast hn1
        constructor <;> linarith
      omega
  · left
    rw [Nat.floor_eq_iff h1]
    have : (1 : ℝ) / new ≤ r / new := by gcongr; exact_mod_cast hrpos
    constructor <;> linarith

theorem source_near {old new x : Nat} (h0 : 0 < old) (hm : old * new ≤ 2 ^ 51) (hx : x < new) :
    Near old new x ⌊dbl (dbl x * ratioD old new)⌋₊ := by
  have hn1 : 0 < new := by omega
  have ho : old ≤ 2 ^ 51 := le_trans (Nat.le_mul_of_pos_right _ hn1) hm
  have hn : new ≤ 2 ^ 51 := le_trans (Nat.le_mul_of_pos_left _ h0) hm
  obtain ⟨h1, h2, h3⟩ := source_bounds h0 (by omega) (by omega) hx
  refine near_of_bounds h0 hx eps_pos (by unfold eps; norm_num) ?_ h1 h2 h3
  have : (old : ℝ) * new ≤ 2 ^ 51 := by exact_mod_cast hm
  unfold eps
  linarith

theorem source_whole {new k x : Nat} (hm : new * k ≤ 2 ^ 53) (hn : new ≤ 2 ^ 53) (hx : x < new) :
    ⌊dbl (dbl x * ratioD (new * k) new)⌋₊ = x * k := by
  have hn0 : (0 : ℝ) < new := by exact_mod_cast (by omega : 0 < new)
  have hk : k ≤ 2 ^ 53 := le_trans (Nat.le_mul_of_pos_left _ (by omega)) hm
  have hxk : x * k ≤ 2 ^ 53 := le_trans (Nat.mul_le_mul_right _ hx.le) hm
  have e1 : ratioD (new * k) new = k := by
    unfold ratioD
    rw [dbl_nat hm, dbl_nat hn]
    push_cast
    rw [mul_div_cancel_left₀ _ hn0.ne', dbl_nat hk]
  rw [e1, dbl_nat (by omega : x ≤ 2 ^ 53)]
  have : (x : ℝ) * k = ((x * k : Nat) : ℝ) := by push_cast; ring
  rw [this, dbl_nat hxk, Nat.floor_natCast]

/-! ### Weighted means -/

theorem mix_bounds {a b t lo hi : ℝ} (ht0 : 0 ≤ t) (ht1 : t ≤ 1) (hlo : 0 ≤ lo) (ha : lo ≤ a) (ha' : a ≤ hi)
    (hb : lo ≤ b) (hb' : b ≤ hi) :
    (1 - eps) ^ 3 * lo ≤ mixD a b t ∧ mixD a b t ≤ (1 + eps) ^ 3 * hi := by
  have he := eps_pos
  have he1 : eps ≤ 1 / 2 := by unfold eps; norm_num
  have hs0 : (0 : ℝ) ≤ 1 - t := by linarith
  obtain ⟨s1, s2⟩ := dbl_bounds hs0
  have hs := dbl_nonneg hs0
  have ha0 : 0 ≤ a := hlo.trans ha
  have hb0 : 0 ≤ b := hlo.trans hb
  have hp0 : 0 ≤ a * dbl (1 - t) := mul_nonneg ha0 hs
  have hq0 : 0 ≤ b * t := mul_nonneg hb0 ht0
  obtain ⟨p1, p2⟩ := dbl_bounds hp0
  obtain ⟨q1, q2⟩ := dbl_bounds hq0
  have hp := dbl_nonneg hp0
  have hq := dbl_nonneg hq0
  obtain ⟨r1, r2⟩ := dbl_bounds (add_nonneg hp hq)
  have hhi : 0 ≤ hi := hb0.trans hb'
  unfold mixD
  constructor
  · have c1 : (1 - eps) ^ 2 * (lo * (1 - t)) ≤ dbl (a * dbl (1 - t)) := by
      calc (1 - eps) ^ 2 * (lo * (1 - t)) = (1 - eps) * (lo * ((1 - eps) * (1 - t))) := by ring
        _ ≤ (1 - eps) * (a * dbl (1 - t)) := by
            refine mul_le_mul_of_nonneg_left (mul_le_mul ha s1 (by nlinarith) ha0) (by linarith)
        _ ≤ _ := p1
    have c2 : (1 - eps) ^ 2 * (lo * t) ≤ dbl (b * t) := by
      calc (1 - eps) ^ 2 * (lo * t) ≤ (1 - eps) * (lo * t) := by
            refine mul_le_mul_of_nonneg_right ?_ (mul_nonneg hlo ht0)
            nlinarith
        _ ≤ (1 - eps) * (b * t) := by
            refine mul_le_mul_of_nonneg_left (mul_le_mul_of_nonneg_right hb ht0) (by linarith)
        _ ≤ _ := q1
    calc (1 - eps) ^ 3 * lo = (1 - eps) * ((1 - eps) ^ 2 * (lo * (1 - t)) + (1 - eps) ^ 2 * (lo * t)) := by ring
      _ ≤ (1 - eps) * (dbl (a * dbl (1 - t)) + dbl (b * t)) :=
          mul_le_mul_of_nonneg_left (by linarith) (by linarith)
      _ ≤ _ := r1
  · have c1 : dbl (a * dbl (1 - t)) ≤ (1 + eps) ^ 2 * (hi * (1 - t)) := by
      calc _ ≤ (1 + eps) * (a * dbl (1 - t)) := p2
        _ ≤ (1 + eps) * (hi * ((1 + eps) * (1 - t))) := by
            refine mul_le_mul_of_nonneg_left (mul_le_mul ha' s2 hs hhi) (by linarith)
        _ = _ := by ring
    have c2 : dbl (b * t) ≤ (1 + eps) ^ 2 * (hi * t) := by
      calc _ ≤ (1 + eps) * (b * t) := q2
        _ ≤ (1 + eps) * (hi * t) := by
            refine mul_le_mul_of_nonneg_left (mul_le_mul_of_nonneg_right hb' ht0) (by linarith)
        _ ≤ _ := by
            refine mul_le_mul_of_nonneg_right ?_ (mul_nonneg hhi ht0)
            nlinarith
    calc _ ≤ (1 + eps) * (dbl (a * dbl (1 - t)) + dbl (b * t)) := r2
      _ ≤ (1 + eps) * ((1 + eps) ^ 2 * (hi * (1 - t)) + (1 + eps) ^ 2 * (hi * t)) :=
          mul_le_mul_of_nonneg_left (by linarith) (by linarith)
      _ = _ := by ring

/-- At weight 0 the first value is taken. -/
theorem mix_zero {a : Nat} {b : ℝ} (ha : a ≤ 2 ^ 53) : mixD a b 0 = a := by
  unfold mixD
  rw [sub_zero, dbl_one, mul_one, mul_zero, dbl_zero, dbl_nat ha, add_zero, dbl_nat ha]

theorem floor_oneBelow {v : ℝ} {lo hi : Nat} (hhi : hi ≤ 255) (hl : lo ≤ hi) (h1 : (1 - eps) ^ 6 * lo ≤ v)
    (h2 : v ≤ (1 + eps) ^ 6 * hi) : 0 ≤ v ∧ v < hi + 1 ∧ OneBelow lo hi ⌊v⌋₊ := by
  have hlo' : (lo : ℝ) ≤ 255 := by exact_mod_cast hl.trans hhi
  have hhi' : (hi : ℝ) ≤ 255 := by exact_mod_cast hhi
  have hlo0 : (0 : ℝ) ≤ lo := by positivity
  have hhi0 : (0 : ℝ) ≤ hi := by positivity
  have g1 : (1 : ℝ) - 1 / 256 < (1 - eps) ^ 6 := by unfold eps; norm_num
  have g2 : (1 + eps) ^ 6 < (1 : ℝ) + 1 / 256 := by unfold eps; norm_num
  have a1 : (lo : ℝ) - 1 < v := by nlinarith
  have a2 : v < hi + 1 := by nlinarith
  have a0 : 0 ≤ v := le_trans (mul_nonneg (by linarith) hlo0) h1
  refine ⟨a0, a2, ?_, ?_⟩
  · have := Nat.lt_floor_add_one v
    have h : (lo : ℝ) - 1 < ⌊v⌋₊ + 1 := a1.trans this
    have : (lo : ℝ) < (⌊v⌋₊ + 2 : Nat) := by push_cast; linarith
    have : lo < ⌊v⌋₊ + 2 := by exact_mod_cast this
    omega
  · have : ⌊v⌋₊ < hi + 1 := (Nat.floor_lt a0).2 (by exact_mod_cast a2)
    omega

/-! ### Literals -/

theorem fl_lit {p : Nat} {x : ℝ} (m e : ℤ) (h1 : (2 : ℝ) ^ e ≤ x) (h2 : x < (2 : ℝ) ^ (e + 1))
    (hm : |x / (2 : ℝ) ^ (e + 1 - p) - m| < 1 / 2) : fl p x = m * (2 : ℝ) ^ (e + 1 - p) := by
  have hx : 0 < x := lt_of_lt_of_le (by positivity) h1
  refine fl_eq_of (by rwa [abs_of_pos hx]) (by rwa [abs_of_pos hx]) (roundEven_eq hm)

theorem Rep.mono {p q : Nat} {x : ℝ} (h : Rep p x) (hpq : p ≤ q) : Rep q x := by
  obtain ⟨m, e, hm, rfl⟩ := h
  exact ⟨m, e, hm.trans (pow_le_pow_right₀ (by norm_num) hpq), rfl⟩

theorem fl_of_rep53 {p : Nat} (hp : 53 ≤ p) {x : ℝ} (h : Rep 53 x) : fl p x = x :=
  fl_of_rep (by omega) (h.mono hp)

theorem pi_double : dbl Real.pi = 884279719003555 / 281474976710656 := by
  have g := Real.pi_gt_d20
  have l := Real.pi_lt_d20
  unfold dbl
  rw [fl_lit 7074237752028440 1 (by norm_num; linarith) (by norm_num; linarith)
    (by rw [abs_lt]; norm_num; constructor <;> linarith)]
  norm_num

theorem deg_double : dbl (180 / dbl Real.pi) = 1007958012753983 / 17592186044416 := by
  rw [pi_double]
  unfold dbl
  rw [fl_lit 8063664102031864 5 (by norm_num) (by norm_num) (by rw [abs_lt]; norm_num)]
  norm_num

/-! ### HSV -/

section hsv
variable {p : Nat}

theorem one_sub_fl (hp : 53 ≤ p) {x : ℝ} (h0 : 0 ≤ x) (h1 : x ≤ 1) : 0 ≤ fl p (1 - x) ∧ fl p (1 - x) ≤ 1 := by
  refine ⟨fl_nonneg (by linarith), ?_⟩
  have := fl_mono (p := p) (by omega) (show 1 - x ≤ 1 by linarith)
  rwa [show fl p 1 = 1 by simpa using fl_nat (p := p) (n := 1) (by omega) Nat.one_le_two_pow] at this

/-- A channel between the darkest and the brightest. -/
theorem chan_between (hp : 53 ≤ p) {M : Nat} (hM : M ≤ 255) {S e : ℝ} (hS : Rep 53 S) (hS1 : S ≤ 1)
    (hS0 : 0 ≤ S) (he0 : 0 ≤ e) (he1 : e ≤ 1) :
    fl p (M * fl p (1 - S)) ≤ fl p (M * fl p (1 - fl p (e * S))) ∧
      fl p (M * fl p (1 - fl p (e * S))) ≤ M ∧ 0 ≤ fl p (M * fl p (1 - S)) := by
  have hM0 : (0 : ℝ) ≤ M := by positivity
  have hpp : 1 ≤ p := by omega
  have a1 : fl p (e * S) ≤ S := by
    have := fl_mono (p := p) hpp (show e * S ≤ S by nlinarith)
    rwa [fl_of_rep53 hp hS] at this
  have a0 : 0 ≤ fl p (e * S) := fl_nonneg (mul_nonneg he0 hS0)
  have b := one_sub_fl hp a0 (a1.trans hS1)
  have c := one_sub_fl hp hS0 hS1
  refine ⟨fl_mono hpp (mul_le_mul_of_nonneg_left (fl_mono hpp (by linarith)) hM0), ?_, ?_⟩
  · have := fl_mono (p := p) hpp (show (M : ℝ) * fl p (1 - fl p (e * S)) ≤ M by nlinarith [b.2])
    rwa [fl_nat (p := p) hpp (by
      have : 2 ^ 53 ≤ 2 ^ p := Nat.pow_le_pow_right (by norm_num) hp
      omega)] at this
  · exact fl_nonneg (mul_nonneg hM0 c.1)

theorem fl53_err (hp : 53 ≤ p) (x : ℝ) : |fl p x - x| ≤ eps * |x| := by
  refine (fl_err (p := p) x).trans (mul_le_mul_of_nonneg_right ?_ (abs_nonneg _))
  have : (2 : ℝ) ^ (-(p : ℤ)) ≤ (2 : ℝ) ^ (-(53 : ℤ)) := zpow_le_zpow_right₀ (by norm_num) (by omega)
  refine this.trans (le_of_eq ?_)
  unfold eps
  norm_num

/-- The saturation of a pixel. -/
noncomputable def satD (M m : Nat) : ℝ := if M = 0 then 0 else dbl (1 - dbl ((m : ℝ) / (M : ℝ)))

theorem satD_spec {M m : Nat} (hm : m ≤ M) :
    Rep 53 (satD M m) ∧ 0 ≤ satD M m ∧ satD M m ≤ 1 ∧ (0 < M → |1 - satD M m - (m : ℝ) / M| ≤ 2 * eps) := by
  unfold satD
  split
  · exact ⟨⟨0, 0, by simp, by simp⟩, le_rfl, zero_le_one, by omega⟩
  · rename_i h
    have hM : (0 : ℝ) < M := by exact_mod_cast Nat.pos_of_ne_zero h
    have q0 : 0 ≤ (m : ℝ) / M := by positivity
    have q1 : (m : ℝ) / M ≤ 1 := by rw [div_le_one hM]; exact_mod_cast hm
    have d0 := dbl_nonneg q0
    have d1 : dbl ((m : ℝ) / M) ≤ 1 := by simpa using dbl_le_nat (n := 1) (by norm_num) (by simpa using q1)
    have e1 := dbl_err ((m : ℝ) / M)
    have e2 := dbl_err (1 - dbl ((m : ℝ) / M))
    rw [abs_of_nonneg q0] at e1
    rw [abs_of_nonneg (by linarith : 0 ≤ 1 - dbl ((m : ℝ) / M))] at e2
    refine ⟨dbl_rep _, dbl_nonneg (by linarith), ?_, fun _ => ?_⟩
    · simpa using dbl_le_nat (n := 1) (by norm_num) (show 1 - dbl ((m : ℝ) / M) ≤ (1 : Nat) by simp; linarith)
    · have he := eps_pos
      have e1' : eps * ((m : ℝ) / M) ≤ eps := by nlinarith
      have e2' : eps * (1 - dbl ((m : ℝ) / M)) ≤ eps := by nlinarith
      rw [abs_le] at *
      constructor <;> linarith [e1.1, e1.2, e2.1, e2.2]

/-- What becomes of the darkest level. -/
theorem darkest_level (hp : 53 ≤ p) {M m : Nat} (hm : m ≤ M) (hM : M ≤ 255) :
    OneBelow m m ⌊fl p (M * fl p (1 - satD M m))⌋₊ := by
  obtain ⟨-, s0, s1, s2⟩ := satD_spec hm
  rcases Nat.eq_zero_or_pos M with h | h
  · have : m = 0 := by omega
    subst this h
    simp [fl_zero, OneBelow]
  have s2 := s2 h
  have hM0 : (0 : ℝ) < M := by exact_mod_cast h
  have hM' : (M : ℝ) ≤ 255 := by exact_mod_cast hM
  have he := eps_pos
  have c := one_sub_fl hp s0 s1
  have e1 := fl53_err hp (1 - satD M m)
  rw [abs_of_nonneg (show 0 ≤ 1 - satD M m by linarith)] at e1
  have hv0 : 0 ≤ (M : ℝ) * fl p (1 - satD M m) := mul_nonneg hM0.le c.1
  have e2 := fl53_err hp ((M : ℝ) * fl p (1 - satD M m))
  rw [abs_of_nonneg hv0] at e2
  have e1' : eps * (1 - satD M m) ≤ eps := by nlinarith
  have hmid : |fl p (1 - satD M m) - (m : ℝ) / M| ≤ 3 * eps := by
    rw [abs_le] at *
    constructor <;> linarith [e1.1, e1.2, s2.1, s2.2]
  have hmul : |(M : ℝ) * fl p (1 - satD M m) - m| ≤ 255 * (3 * eps) := by
    have : (M : ℝ) * fl p (1 - satD M m) - m = M * (fl p (1 - satD M m) - (m : ℝ) / M) := by
      field_simp
    rw [this, abs_mul, abs_of_pos hM0]
    exact mul_le_mul hM' hmid (abs_nonneg _) (by norm_num)
  have e2' : eps * ((M : ℝ) * fl p (1 - satD M m)) ≤ eps * 255 := by
    refine mul_le_mul_of_nonneg_left ?_ he.le
    nlinarith [c.2]
  set v := fl p ((M : ℝ) * fl p (1 - satD M m)) with hv
  have v0 : 0 ≤ v := fl_nonneg hv0
  have small : 255 * (3 * eps) + eps * 255 < 1 := by unfold eps; norm_num
  rw [abs_le] at hmul e2
  have l1 : (m : ℝ) - 1 < v := by linarith [hmul.1, e2.1]
  have l2 : v < m + 1 := by linarith [hmul.2, e2.2]
  constructor
  · have := Nat.lt_floor_add_one v
    have : (m : ℝ) < (⌊v⌋₊ + 2 : Nat) := by push_cast; linarith
    have : m < ⌊v⌋₊ + 2 := by exact_mod_cast this
    omega
  · have : ⌊v⌋₊ < m + 1 := (Nat.floor_lt v0).2 (by exact_mod_cast l2)
    omega

open Color in
theorem hsv2rgbD_levels (hp : 53 ≤ p) {M m : Nat} (hm : m ≤ M) (hM : M ≤ 255) {H : ℝ} (h0 : 0 ≤ H)
    (h1 : H ≤ 360 - 1 / 2 ^ 10) :
    ∃ q, hsv2rgbD p ⟨H, satD M m, M⟩ = .ok q ∧ brightest q = M ∧ OneBelow m m (darkest q) := by
  obtain ⟨sr, s0, s1, -⟩ := satD_spec hm
  have hpp : 1 ≤ p := by omega
  have hpow : 2 ^ 53 ≤ 2 ^ p := Nat.pow_le_pow_right (by norm_num) hp
  set u := fl p (H / 60) with hu
  have u0 : 0 ≤ u := fl_nonneg (by positivity)
  have u6 : u < 6 := by
    have hr : Rep 53 ((6 * 2 ^ 17 - 1 : ℤ) * (2 : ℝ) ^ (-17 : ℤ)) := ⟨6 * 2 ^ 17 - 1, -17, by norm_num, rfl⟩
    have := fl_mono (p := p) hpp (show H / 60 ≤ ((6 * 2 ^ 17 - 1 : ℤ) * (2 : ℝ) ^ (-17 : ℤ)) by
      norm_num; norm_num at h1; linarith)
    rw [fl_of_rep53 hp hr] at this
    refine lt_of_le_of_lt this ?_
    norm_num
  have hfl : ⌊u⌋₊ < 6 := (Nat.floor_lt u0).2 (by exact_mod_cast u6)
  have hint : ((⌊u⌋ : ℤ) : ℝ) = ((⌊u⌋₊ : Nat) : ℝ) := (natCast_floor_eq_intCast_floor u0).symm
  have e1 : toU8 ((⌊u⌋ : ℤ) : ℝ) = .ok (BitVec.ofNat 8 ⌊u⌋₊) := by
    rw [hint]; exact toU8_nat (by omega)
  have e2 : (BitVec.ofNat 8 ⌊u⌋₊).toNat = ⌊u⌋₊ := by
    rw [BitVec.toNat_ofNat]; exact Nat.mod_eq_of_lt (by omega)
  have one : fl p 1 = 1 := by simpa using fl_nat (p := p) (n := 1) hpp (by omega)
  have f0 : 0 ≤ fl p (u - (⌊u⌋₊ : Nat)) := fl_nonneg (by linarith [Nat.floor_le u0])
  have f1 : fl p (u - (⌊u⌋₊ : Nat)) ≤ 1 := by
    have := fl_mono (p := p) hpp (show u - (⌊u⌋₊ : Nat) ≤ 1 by linarith [Nat.lt_floor_add_one u])
    rwa [one] at this
  obtain ⟨g0, g1⟩ := one_sub_fl hp f0 f1
  obtain ⟨q1, q2, q0⟩ := chan_between hp hM sr s1 s0 f0 f1
  obtain ⟨t1, t2, -⟩ := chan_between hp hM sr s1 s0 g0 g1
  have hM' : (M : ℝ) < 256 := by
    have : (M : ℝ) ≤ 255 := by exact_mod_cast hM
    linarith
  have hM0 : (0 : ℝ) ≤ M := by positivity
  have hdark := darkest_level hp hm hM
  simp only [hsv2rgbD, ← hu, e1, Res.ok_bind, e2]
  set mn := fl p (M * fl p (1 - satD M m)) with hmn
  set qq := fl p (M * fl p (1 - fl p (fl p (u - (⌊u⌋₊ : Nat)) * satD M m))) with hqq
  set tt := fl p (M * fl p (1 - fl p (fl p (1 - fl p (u - (⌊u⌋₊ : Nat))) * satD M m))) with htt
  have fq1 := Nat.floor_le_floor q1
  have ft1 := Nat.floor_le_floor t1
  have fq2 := Nat.floor_le_floor q2
  have ft2 := Nat.floor_le_floor t2
  have fm := fq1.trans fq2
  rw [Nat.floor_natCast] at fq2 ft2 fm
  obtain h | h | h | h | h | h : ⌊u⌋₊ = 0 ∨ ⌊u⌋₊ = 1 ∨ ⌊u⌋₊ = 2 ∨ ⌊u⌋₊ = 3 ∨ ⌊u⌋₊ = 4 ∨ ⌊u⌋₊ = 5 := by omega
  all_goals rw [h]
  · obtain ⟨q, e, c0, c1, c2⟩ := pack_ok hM0 hM' (q0.trans t1) (t2.trans_lt hM') q0 ((t1.trans t2).trans_lt hM')
    refine ⟨q, e, ?_, ?_⟩
    · unfold brightest; rw [c0, c1, c2, Nat.floor_natCast]; omega
    · have : darkest q = ⌊mn⌋₊ := by unfold darkest; rw [c0, c1, c2, Nat.floor_natCast]; omega
      rwa [this]
  · obtain ⟨q, e, c0, c1, c2⟩ := pack_ok (q0.trans q1) (q2.trans_lt hM') hM0 hM' q0 ((t1.trans t2).trans_lt hM')
    refine ⟨q, e, ?_, ?_⟩
    · unfold brightest; rw [c0, c1, c2, Nat.floor_natCast]; omega
    · have : darkest q = ⌊mn⌋₊ := by unfold darkest; rw [c0, c1, c2, Nat.floor_natCast]; omega
      rwa [this]
  · obtain ⟨q, e, c0, c1, c2⟩ := pack_ok q0 ((t1.trans t2).trans_lt hM') hM0 hM' (q0.trans t1) (t2.trans_lt hM')
    refine ⟨q, e, ?_, ?_⟩
    · unfold brightest; rw [c0, c1, c2, Nat.floor_natCast]; omega
    · have : darkest q = ⌊mn⌋₊ := by unfold darkest; rw [c0, c1, c2, Nat.floor_natCast]; omega
      rwa [this]
  · obtain ⟨q, e, c0, c1, c2⟩ := pack_ok q0 ((t1.trans t2).trans_lt hM') (q0.trans q1) (q2.trans_lt hM') hM0 hM'
    refine ⟨q, e, ?_, ?_⟩
    · unfold brightest; rw [c0, c1, c2, Nat.floor_natCast]; omega
    · have : darkest q = ⌊mn⌋₊ := by unfold darkest; rw [c0, c1, c2, Nat.floor_natCast]; omega
      rwa [this]
  · obtain ⟨q, e, c0, c1, c2⟩ := pack_ok (q0.trans t1) (t2.trans_lt hM') q0 ((t1.trans t2).trans_lt hM') hM0 hM'
    refine ⟨q, e, ?_, ?_⟩
    · unfold brightest; rw [c0, c1, c2, Nat.floor_natCast]; omega
    · have : darkest q = ⌊mn⌋₊ := by unfold darkest; rw [c0, c1, c2, Nat.floor_natCast]; omega
      rwa [this]
  · obtain ⟨q, e, c0, c1, c2⟩ := pack_ok hM0 hM' q0 ((t1.trans t2).trans_lt hM') (q0.trans q1) (q2.trans_lt hM')
    refine ⟨q, e, ?_, ?_⟩
    · unfold brightest; rw [c0, c1, c2, Nat.floor_natCast]; omega
    · have : darkest q = ⌊mn⌋₊ := by unfold darkest; rw [c0, c1, c2, Nat.floor_natCast]; omega
      rwa [this]

/-- The argument of the arc cosine. -/
noncomputable def hueArg (r g b : ℝ) : ℝ :=
  dbl (dbl (0.5 * ((r - g) + (r - b))) / dbl (Real.sqrt ((r - g) ^ 2 + (r - b) * (g - b))))

theorem half_double {r g b : Nat} (hr : r < 256) (hg : g < 256) (hb : b < 256) :
    dbl (0.5 * (((r : ℝ) - g) + (r - b))) = 0.5 * (((r : ℝ) - g) + (r - b)) := by
  refine dbl_of_rep ⟨(2 * r - g - b : ℤ), -1, ?_, ?_⟩
  · rw [abs_le]; constructor <;> omega
  · push_cast; norm_num; ring

/-- The argument of the arc cosine lies in its domain. -/
theorem hueArg_range {r g b : Nat} (hr : r < 256) (hg : g < 256) (hb : b < 256) (hne : ¬ (r = g ∧ g = b)) :
    -1 ≤ hueArg r g b ∧ hueArg r g b ≤ 1 ∧ (g ≠ b → hueArg r g b ≤ 1 - 1 / 2 ^ 20) := by
  have hr' : (r : ℝ) ≤ 255 := by exact_mod_cast (by omega : r ≤ 255)
  have hg' : (g : ℝ) ≤ 255 := by exact_mod_cast (by omega : g ≤ 255)
  have hb' : (b : ℝ) ≤ 255 := by exact_mod_cast (by omega : b ≤ 255)
  have hr0 : (0 : ℝ) ≤ r := by positivity
  have hg0 : (0 : ℝ) ≤ g := by positivity
  have hb0 : (0 : ℝ) ≤ b := by positivity
  unfold hueArg
  rw [half_double hr hg hb]
  set N : ℝ := 0.5 * (((r : ℝ) - g) + (r - b)) with hN
  set Q : ℝ := ((r : ℝ) - g) ^ 2 + (r - b) * (g - b) with hQ
  have hNQ : N ^ 2 + 3 / 4 * ((g : ℝ) - b) ^ 2 = Q := by rw [hN, hQ]; ring
  by_cases hgb : g = b
  · subst hgb
    have hne' : r ≠ g := fun h => hne ⟨h, rfl⟩
    have hsq : Q = N ^ 2 := by rw [← hNQ]; ring
    have hNi : N = ((r - g : ℤ) : ℝ) := by rw [hN]; push_cast; ring
    have hNz : N ≠ 0 := by
      rw [hNi]; exact_mod_cast (by omega : (r - g : ℤ) ≠ 0)
    have hDi : |N| = ((|(r - g : ℤ)| : ℤ) : ℝ) := by rw [hNi, Int.cast_abs]
    have hD : dbl (Real.sqrt Q) = |N| := by
      rw [hsq, Real.sqrt_sq_eq_abs, hDi]
      refine dbl_of_rep (rep_int ?_)
      rw [abs_abs, abs_le]; constructor <;> omega
    rw [hD]
    rcases lt_or_gt_of_ne hNz with h | h
    · rw [abs_of_neg h, div_neg, div_self hNz]
      have : dbl (-1) = -1 := by unfold dbl; rw [fl_neg]; exact congrArg _ dbl_one
      rw [this]; norm_num
    · rw [abs_of_pos h, div_self hNz, dbl_one]; norm_num
  · have hd : (1 : ℝ) ≤ ((g : ℝ) - b) ^ 2 := by
      have : (1 : ℤ) ≤ ((g : ℤ) - b) ^ 2 := by
        have : (g : ℤ) - b ≠ 0 := by omega
        have := sq_pos_of_ne_zero this
        omega
      exact_mod_cast this
    have hN2 : N ^ 2 ≤ Q - 3 / 4 := by linarith
    have hQ1 : 3 / 4 ≤ Q := by nlinarith [sq_nonneg N]
    have hQ2 : Q ≤ 2 * 255 ^ 2 := by
      rw [hQ]
      have a1 : ((r : ℝ) - g) ^ 2 ≤ 255 ^ 2 :=
        sq_le_sq' (by linarith) (by linarith)
      have a2 : ((r : ℝ) - b) * (g - b) ≤ 255 ^ 2 := by
        have h1 : |(r : ℝ) - b| ≤ 255 := by rw [abs_le]; constructor <;> linarith
        have h2 : |(g : ℝ) - b| ≤ 255 := by rw [abs_le]; constructor <;> linarith
        have := mul_le_mul h1 h2 (abs_nonneg _) (by norm_num)
        rw [← abs_mul] at this
        linarith [le_abs_self (((r : ℝ) - b) * (g - b))]
      linarith
    set D := Real.sqrt Q with hDdef
    have hD0 : 0 < D := Real.sqrt_pos.2 (by linarith)
    have hDQ : D ^ 2 = Q := Real.sq_sqrt (by linarith)
    have hdb := (dbl_bounds hD0.le).1
    have he := eps_pos
    -- the quotient is well below 1
    have key : |N| ≤ (1 - 1 / 2 ^ 19) * D := by
      refine abs_le_of_sq_le_sq ?_ (by positivity)
      rw [mul_pow (1 - 1 / 2 ^ 19) D 2, hDQ]
      nlinarith
    have hdD : 0 < dbl D := lt_of_lt_of_le (mul_pos (by unfold eps; norm_num) hD0) hdb
    have key2 : |N / dbl D| ≤ 1 - 1 / 2 ^ 20 := by
      rw [abs_div, abs_of_pos hdD, div_le_iff₀ hdD]
      refine key.trans ?_
      refine le_trans ?_ (mul_le_mul_of_nonneg_left hdb (by norm_num))
      rw [← mul_assoc]
      refine mul_le_mul_of_nonneg_right ?_ hD0.le
      unfold eps; norm_num
    have hrep : Rep 53 (1 - 1 / 2 ^ 20 : ℝ) := ⟨2 ^ 20 - 1, -20, by norm_num, by norm_num⟩
    rw [abs_le] at key2
    have u := dbl_mono key2.2
    have l := dbl_mono key2.1
    rw [dbl_of_rep hrep] at u
    rw [dbl_of_rep hrep.neg] at l
    refine ⟨le_trans (by norm_num) l, u.trans (by norm_num), fun _ => u⟩

theorem hueD_eq (acos : ℝ → ℝ) (r g b : ℝ) :
    hueD acos r g b = dbl (acos (hueArg r g b) * dbl (180 / dbl Real.pi)) := rfl

theorem hueD_range {acos : ℝ → ℝ} (ha : GoodAcos (dbl Real.pi) acos) {r g b : Nat} (hr : r < 256) (hg : g < 256)
    (hb : b < 256) (hne : ¬ (r = g ∧ g = b)) :
    0 ≤ hueD acos r g b ∧ hueD acos r g b ≤ 180 ∧ (g ≠ b → 1 / 2 ^ 8 ≤ hueD acos r g b) := by
  obtain ⟨l, u, u'⟩ := hueArg_range hr hg hb hne
  obtain ⟨a0, a1, a2⟩ := ha _ l u
  rw [hueD_eq, deg_double]
  rw [pi_double] at a1
  refine ⟨dbl_nonneg (by positivity), ?_, fun h => ?_⟩
  · have : acos (hueArg r g b) * (1007958012753983 / 17592186044416) ≤ (180 : Nat) := by
      refine (mul_le_mul_of_nonneg_right a1 (by norm_num)).trans ?_
      norm_num
    simpa using dbl_le_nat (by norm_num) this
  · have h20 := u' h
    set x := Real.arccos (hueArg r g b) with hx
    have hcos : Real.cos x = hueArg r g b := Real.cos_arccos l u
    have hx0 : 0 ≤ x := Real.arccos_nonneg _
    have := Real.one_sub_sq_div_two_le_cos (x := x)
    rw [hcos] at this
    have hx2 : (1 / 2 ^ 10 : ℝ) ≤ x := by
      by_contra hc
      push Not at hc
      have : x ^ 2 < (1 / 2 ^ 10) ^ 2 := by nlinarith
      norm_num at *
      linarith
    rw [abs_le] at a2
    have hac : (1 / 2 ^ 11 : ℝ) ≤ acos (hueArg r g b) := by
      have := a2.1
      norm_num at *
      linarith
    have hrep : Rep 53 (1 / 2 ^ 8 : ℝ) := ⟨1, -8, by norm_num, by norm_num⟩
    have hm := dbl_mono (show (1 / 2 ^ 8 : ℝ) ≤ acos (hueArg r g b) * (1007958012753983 / 17592186044416) by
      norm_num at *; linarith)
    rwa [dbl_of_rep hrep] at hm

open Color in
theorem rgb2hsvD_range {acos : ℝ → ℝ} (ha : GoodAcos (dbl Real.pi) acos) (px : RGB) :
    (rgb2hsvD acos px).c1 = satD (brightest px) (darkest px) ∧ (rgb2hsvD acos px).c2 = brightest px ∧
      0 ≤ (rgb2hsvD acos px).c0 ∧ (rgb2hsvD acos px).c0 ≤ 360 - 1 / 2 ^ 8 := by
  refine ⟨rfl, rfl, ?_⟩
  have hne : ∀ (_ : brightest px ≠ darkest px),
      ¬ (px.c0.toNat = px.c1.toNat ∧ px.c1.toNat = px.c2.toNat) := by
    rintro h ⟨h1, h2⟩
    apply h
    unfold brightest darkest chan
    rw [h1, h2]; simp
  have hc : (rgb2hsvD acos px).c0 = if brightest px = darkest px then 0
      else if px.c2.toNat ≤ px.c1.toNat then hueD acos px.c0.toNat px.c1.toNat px.c2.toNat
      else dbl (360 - hueD acos px.c0.toNat px.c1.toNat px.c2.toNat) := rfl
  rw [hc]
  by_cases h : brightest px = darkest px
  · rw [if_pos h]; norm_num
  rw [if_neg h]
  obtain ⟨h0, h1, h2⟩ := hueD_range ha px.c0.isLt px.c1.isLt px.c2.isLt (hne h)
  by_cases hb : px.c2.toNat ≤ px.c1.toNat
  · rw [if_pos hb]
    exact ⟨h0, by norm_num at *; linarith⟩
  · rw [if_neg hb]
    have h2 := h2 (by omega)
    refine ⟨dbl_nonneg (by linarith), ?_⟩
    have hrep : Rep 53 (360 - 1 / 2 ^ 8 : ℝ) := ⟨360 * 2 ^ 8 - 1, -8, by norm_num, by norm_num⟩
    have := dbl_mono (show 360 - hueD acos px.c0.toNat px.c1.toNat px.c2.toNat ≤ (360 - 1 / 2 ^ 8 : ℝ) by linarith)
    rwa [dbl_of_rep hrep] at this

end hsv

/-! ### Bicubic resizing -/

theorem fl_bounds {p : Nat} {x : ℝ} (hx : 0 ≤ x) :
    (1 - (2 : ℝ) ^ (-(p : ℤ))) * x ≤ fl p x ∧ fl p x ≤ (1 + (2 : ℝ) ^ (-(p : ℤ))) * x := by
  have := fl_err (p := p) x
  rw [abs_of_nonneg hx, abs_le] at this
  constructor <;> linarith [this.1, this.2]

theorem mapping_nonneg (p old new x : Nat) : 0 ≤ mappingP p old new x := by
  unfold mappingP
  refine fl_nonneg (mul_nonneg (fl_nonneg (by positivity)) (fl_nonneg (div_nonneg ?_ ?_))) <;>
    exact fl_nonneg (by positivity)

theorem mapping_near {p old new x : Nat} (hp : 2 ≤ p) (h0 : 0 < old) (hm : old * new * 4 ≤ 2 ^ p) (hx : x < new) :
    Near old new x ⌊mappingP p old new x⌋₊ := by
  have hn1 : 0 < new := by omega
  have ho : old ≤ 2 ^ p := by
    have := Nat.le_mul_of_pos_right old hn1
    omega
  have hn : new ≤ 2 ^ p := by
    have := Nat.le_mul_of_pos_left new h0
    omega
  have hpp : 1 ≤ p := by omega
  have hn0 : (0 : ℝ) < new := by exact_mod_cast hn1
  set e : ℝ := (2 : ℝ) ^ (-(p : ℤ)) with he
  have he0 : 0 < e := by positivity
  have he2 : e * 2 ^ p = 1 := by
    rw [he, zpow_neg, zpow_natCast]
    exact inv_mul_cancel₀ (by positivity)
  have he1 : e ≤ 1 / 2 := by
    have : (2 : ℝ) ^ 2 ≤ 2 ^ p := pow_le_pow_right₀ (by norm_num) hp
    nlinarith
  have hr0 : (0 : ℝ) ≤ (old : ℝ) / new := by positivity
  obtain ⟨r1, r2⟩ := fl_bounds (p := p) hr0
  have hx0 : (0 : ℝ) ≤ x := by positivity
  have hd0 : 0 ≤ fl p ((old : ℝ) / new) := fl_nonneg hr0
  have hv0 : (0 : ℝ) ≤ (x : ℝ) * fl p ((old : ℝ) / new) := by positivity
  obtain ⟨v1, v2⟩ := fl_bounds (p := p) hv0
  have hv : mappingP p old new x = fl p ((x : ℝ) * fl p ((old : ℝ) / new)) := by
    unfold mappingP
    rw [fl_nat hpp ho, fl_nat hpp hn, fl_nat (n := x) hpp (by omega)]
  refine near_of_bounds h0 hx he0 he1 ?_ (mapping_nonneg p old new x) ?_ ?_
  · have : (old : ℝ) * new * 4 ≤ 2 ^ p := by exact_mod_cast hm
    nlinarith
  · rw [hv]
    calc (1 - e) ^ 2 * ((x : ℝ) * old / new) = (1 - e) * (x * ((1 - e) * ((old : ℝ) / new))) := by ring
      _ ≤ (1 - e) * (x * fl p ((old : ℝ) / new)) := by
          refine mul_le_mul_of_nonneg_left (mul_le_mul_of_nonneg_left r1 hx0) (by linarith)
      _ ≤ _ := v1
  · rw [hv]
    calc _ ≤ (1 + e) * (x * fl p ((old : ℝ) / new)) := v2
      _ ≤ (1 + e) * (x * ((1 + e) * ((old : ℝ) / new))) := by
          refine mul_le_mul_of_nonneg_left (mul_le_mul_of_nonneg_left r2 hx0) (by linarith)
      _ = _ := by ring

/-- The fractional part of a number of `p` bits has `p` bits. -/
theorem fract_rep {p : Nat} {v : ℝ} (hv : Rep p v) (h0 : 0 ≤ v) : Rep p (Int.fract v) := by
  obtain ⟨m, e, hm, rfl⟩ := hv
  have hm0 : 0 ≤ m := by
    by_contra hc
    push Not at hc
    have h1 : (m : ℝ) < 0 := by exact_mod_cast hc
    have h2 : (0 : ℝ) < (2 : ℝ) ^ e := by positivity
    nlinarith
  rcases le_or_gt 0 e with he | he
  · obtain ⟨k, rfl⟩ := Int.eq_ofNat_of_zero_le he
    have : (m : ℝ) * (2 : ℝ) ^ ((k : Nat) : ℤ) = ((m * 2 ^ k : ℤ) : ℝ) := by
      rw [zpow_natCast]; push_cast; ring
    rw [this, Int.fract_intCast]
    exact ⟨0, 0, by simp, by simp⟩
  · obtain ⟨k, hk⟩ : ∃ k : Nat, e = -(k : ℤ) := ⟨(-e).toNat, by omega⟩
    subst hk
    have hpos : (0 : ℝ) < (2 : ℝ) ^ k := by positivity
    have hval : (m : ℝ) * (2 : ℝ) ^ (-(k : ℤ)) = (m : ℝ) / (2 : ℝ) ^ k := by
      rw [zpow_neg, zpow_natCast]; rfl
    have hdm : (m : ℝ) = (2 : ℝ) ^ k * ((m / (2 ^ k : ℤ) : ℤ) : ℝ) + ((m % (2 ^ k : ℤ) : ℤ) : ℝ) := by
      have := Int.mul_ediv_add_emod m (2 ^ k : ℤ)
      have h2 : (((2 ^ k : ℤ) * (m / (2 ^ k : ℤ)) + m % (2 ^ k : ℤ) : ℤ) : ℝ) = (m : ℝ) := by rw [this]
      push_cast at h2
      push_cast
      linarith
    have hm1 : 0 ≤ m % (2 ^ k : ℤ) := Int.emod_nonneg _ (by positivity)
    have hm2 : m % (2 ^ k : ℤ) < 2 ^ k := Int.emod_lt_of_pos _ (by positivity)
    have hm3 : 0 ≤ m / (2 ^ k : ℤ) := Int.ediv_nonneg hm0 (by positivity)
    have hfl : ⌊(m : ℝ) / (2 : ℝ) ^ k⌋ = m / (2 ^ k : ℤ) := by
      have a1 : (0 : ℝ) ≤ ((m % (2 ^ k : ℤ) : ℤ) : ℝ) := by exact_mod_cast hm1
      have a2 : ((m % (2 ^ k : ℤ) : ℤ) : ℝ) < (2 : ℝ) ^ k := by exact_mod_cast hm2
      rw [Int.floor_eq_iff, le_div_iff₀ hpos, div_lt_iff₀ hpos]
      constructor <;> nlinarith
    refine ⟨m % 2 ^ k, -(k : ℤ), ?_, ?_⟩
    · have h2 : m % (2 ^ k : ℤ) ≤ m := by
        have := Int.mul_ediv_add_emod m (2 ^ k : ℤ)
        have h3 : (0 : ℤ) ≤ 2 ^ k * (m / 2 ^ k) := mul_nonneg (by positivity) hm3
        linarith
      rw [abs_of_nonneg hm1]
      rw [abs_of_nonneg hm0] at hm
      exact h2.trans hm
    · have hval2 : ((m % 2 ^ k : ℤ) : ℝ) * (2 : ℝ) ^ (-(k : ℤ)) = ((m % 2 ^ k : ℤ) : ℝ) / (2 : ℝ) ^ k := by
        rw [zpow_neg, zpow_natCast]; rfl
      rw [hval2, hval, Int.fract, hfl, eq_div_iff hpos.ne', sub_mul, div_mul_cancel₀ _ hpos.ne']
      linarith

theorem clampCoordP_eq {p n : Nat} (hp : 1 ≤ p) (h0 : 0 < n) (hn : n ≤ 2 ^ p) (hn' : n < 2 ^ 64) {z : ℤ}
    (hz1 : -1 ≤ z) : clampCoordP p (fl p z) n = .ok (Filter.clampInt n z) := by
  have h1 : ((n : ℝ) - 1) = ((n - 1 : Nat) : ℝ) := by rw [Nat.cast_sub h0]; simp
  have htop : fl p (fl p n - 1) = ((n - 1 : Nat) : ℝ) := by
    rw [fl_nat hp hn, h1, fl_nat hp (by omega)]
  unfold clampCoordP
  simp only [htop]
  rw [if_neg (by simp)]
  unfold Filter.clampInt
  have hpn : 1 ≤ 2 ^ p := Nat.one_le_two_pow
  by_cases hz : z < 0
  · have hz2 : z = -1 := by omega
    have : fl p ((z : ℤ) : ℝ) = -1 := by
      rw [fl_int hp (by rw [hz2, abs_neg, abs_one]; exact_mod_cast hpn), hz2]; norm_num
    rw [this, if_pos (by norm_num), show ((0 : ℝ)) = ((0 : Nat) : ℝ) by simp, toSize_nat (by omega)]
    congr 1; omega
  · by_cases hz' : (n : Int) - 1 < z
    · have hge : (n : ℝ) ≤ fl p z := by
        have := fl_mono (p := p) hp (show ((n : Nat) : ℝ) ≤ (z : ℝ) by exact_mod_cast (by omega : (n : ℤ) ≤ z))
        rwa [fl_nat hp hn] at this
      have hn0 : (0 : ℝ) < n := by exact_mod_cast h0
      rw [if_neg (by linarith), if_pos (by rw [← h1]; linarith), toSize_nat (by omega)]
      congr 1; omega
    · obtain ⟨m, rfl⟩ := Int.eq_ofNat_of_zero_le (by omega : 0 ≤ z)
      have : fl p (((m : ℤ)) : ℝ) = (m : ℝ) := by
        rw [show (((m : ℤ)) : ℝ) = (m : ℝ) by simp, fl_nat hp (by omega)]
      rw [this, if_neg (by simp), if_neg (by
        rw [not_lt]; exact_mod_cast (by omega : m ≤ n - 1)), toSize_nat (by omega)]
      congr 1; omega

open Resample in
theorem copyResizeBicubicP_shows {α : Type} {p : Nat} (hpp : 1 ≤ p) {im : Image α} {w h : Nat} {f : Nat → Nat → α}
    (polate : List α → ℝ → ℝ → Res α) (zero : α) (s : im.Shows w h f) (hw : 0 < w) (hh : 0 < h)
    (hw2 : w ≤ 2 ^ p) (hh2 : h ≤ 2 ^ p)
    (nw nh : Nat) (hnw : nw < 2 ^ 64) (hnh : nh < 2 ^ 64) (hf : nw * nh < 2 ^ 64)
    (order : List (Nat × Nat)) (hp : order.Perm (iterYX nw nh)) (g : Nat → Nat → α)
    (hg : ∀ x y, x < nw → y < nh →
      polate ((List.range 16).map fun k => edge w h f (⌊mappingP p w nw x⌋ + (((k % 4 : Nat) : Int) - 1))
          (⌊mappingP p h nh y⌋ + (((k / 4 : Nat) : Int) - 1)))
        (Int.fract (mappingP p w nw x)) (Int.fract (mappingP p h nh y)) = .ok (g x y)) :
    ∃ out, copyResizeBicubicP p polate zero order im nw nh = .ok out ∧ out.Shows nw nh g := by
  have s0 := ofSizes_shows zero hnw hnh hf
  unfold copyResizeBicubicP
  refine loop_fill (id : Nat × Nat → Nat × Nat) g _ order ?_ ?_ _ _ s0
  · rintro ⟨x, y⟩ hb o q sq
    have hb := mem_iterYX.mp (hp.mem_iff.mp hb)
    simp only at hb
    simp only [s.width, s.height, id]
    set xm := mappingP p w nw x with hxm
    set ym := mappingP p h nh y with hym
    have hx0 : 0 ≤ ⌊xm⌋ := Int.floor_nonneg.2 (mapping_nonneg p w nw x)
    have hy0 : 0 ≤ ⌊ym⌋ := Int.floor_nonneg.2 (mapping_nonneg p h nh y)
    have hnd : forUp 16 (fun nd k => do
        let cx ← clampCoordP p (fl p ((⌊xm⌋ : ℝ) + (((k % 4 : Nat) : ℝ) - 1))) w
        let cy ← clampCoordP p (fl p ((⌊ym⌋ : ℝ) + (((k / 4 : Nat) : ℝ) - 1))) h
        let v ← im.at2 cx cy
        vset nd k v) (List.replicate 16 zero) = .ok ((List.range 16).map fun k =>
          edge w h f (⌊xm⌋ + (((k % 4 : Nat) : Int) - 1)) (⌊ym⌋ + (((k / 4 : Nat) : Int) - 1))) := by
      rw [forUp]
      refine loop_listSet _ _ _ ?_ _ (by simp) (fun i hi => List.mem_range.mpr hi)
      intro k hk d hd
      have hk := List.mem_range.mp hk
      have e1 : ((⌊xm⌋ : ℝ) + (((k % 4 : Nat) : ℝ) - 1)) = ((⌊xm⌋ + (((k % 4 : Nat) : Int) - 1) : Int) : ℝ) := by
        rw [Int.cast_add, Int.cast_sub, Int.cast_one, Int.cast_natCast]
      have e2 : ((⌊ym⌋ : ℝ) + (((k / 4 : Nat) : ℝ) - 1)) = ((⌊ym⌋ + (((k / 4 : Nat) : Int) - 1) : Int) : ℝ) := by
        rw [Int.cast_add, Int.cast_sub, Int.cast_one, Int.cast_natCast]
      rw [e1, e2, clampCoordP_eq hpp hw hw2 s.w_lt (by omega), Res.ok_bind,
        clampCoordP_eq hpp hh hh2 s.h_lt (by omega), Res.ok_bind,
        s.px _ _ (clampInt_lt hw _) (clampInt_lt hh _), Res.ok_bind, vset, if_pos (by omega)]
      rfl
    rw [hnd, Res.ok_bind]
    have := hg x y hb.1 hb.2
    have r1 : Rep p (xm - ⌊xm⌋) := fract_rep (fl_rep _) (mapping_nonneg p w nw x)
    have r2 : Rep p (ym - ⌊ym⌋) := fract_rep (fl_rep _) (mapping_nonneg p h nh y)
    rw [fl_of_rep hpp r1, fl_of_rep hpp r2]
    rw [Int.fract, Int.fract] at this
    rw [this, Res.ok_bind]
    exact sq.set2 hb.1 hb.2 _
  · exact fun X Y hX hY => ⟨(X, Y), hp.mem_iff.mpr (mem_iterYX.mpr ⟨hX, hY⟩), rfl⟩

theorem loop_all_ok {σ β : Type} {body : σ → β → Res σ} {l : List β} {s t : σ} (h : loop body l s = .ok t) :
    ∀ b ∈ l, ∃ s' t', body s' b = .ok t' := by
  induction l generalizing s with
  | nil => simp
  | cons a l ih =>
    intro b hb
    rw [loop] at h
    cases ha : body s a with
    | ok s' =>
      rw [ha] at h
      rcases List.mem_cons.1 hb with rfl | hb
      · exact ⟨s, s', ha⟩
      · exact ih h b hb
    | throw e => rw [ha] at h; exact absurd h (by simp)
    | ub => rw [ha] at h; exact absurd h (by simp)

end TinyDIP.Rnd
