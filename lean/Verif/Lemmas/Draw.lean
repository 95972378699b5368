import Verif.Lemmas.Geometry
import Verif.Model.Draw
import Verif.Spec.Draw
import Mathlib.Tactic.Linarith
import Mathlib.Tactic.Ring
import Mathlib.Tactic.ByContra

namespace TinyDIP

variable {α : Type}

theorem chkLong_ok {v : Int} (h1 : -(2 ^ 63) ≤ v) (h2 : v < 2 ^ 63) : chkLong v = .ok v := by
  unfold chkLong; rw [if_pos ⟨h1, h2⟩]

theorem toLong_of_lt {n : Nat} (h : n < 2 ^ 63) : toLong n = n := by
  unfold toLong; rw [if_pos h]

/-- Writing where the condition holds, with the unchecked accessor. -/
theorem loop_drawPoint {im : Image α} {w h : Nat} {f : Nat → Nat → α} (s : im.Shows w h f)
    (px py r : Nat) (v : α) (l : List (Nat × Nat)) :
    ∃ out, loop (Image.drawPointBody w h px py r v) l im = .ok out ∧
      out.Shows w h fun x y => if (x, y) ∈ l ∧ InDisc px py r x y then v else f x y := by
  induction l generalizing im f with
  | nil => exact ⟨im, rfl, by simpa using s⟩
  | cons p l ih =>
    by_cases hc : (p.1 < w ∧ p.2 < h) ∧ InDisc px py r p.1 p.2
    · obtain ⟨o, e, so⟩ := s.set2u hc.1.1 hc.1.2 v
      obtain ⟨out, e', so'⟩ := ih so
      have hb : Image.drawPointBody w h px py r v im p = .ok o := by
        unfold Image.drawPointBody
        rw [if_neg (by omega), if_pos (by simpa [Image.insideDisc, InDisc] using hc.2), e]
      refine ⟨out, by rw [loop, hb]; exact e', so'.congr ?_⟩
      intro x y _ _
      simp only [updPx, List.mem_cons]
      by_cases hp : x = p.1 ∧ y = p.2
      · obtain ⟨rfl, rfl⟩ := hp
        simp [hc.2]
      · have : (x, y) ≠ p := fun h => hp ⟨congrArg Prod.fst h, congrArg Prod.snd h⟩
        simp [hp, this]
    · have hb : Image.drawPointBody w h px py r v im p = .ok im := by
        unfold Image.drawPointBody
        by_cases h1 : p.1 ≥ w ∨ p.2 ≥ h
        · rw [if_pos h1]
        · rw [if_neg h1, if_neg]
          intro h2
          exact hc ⟨by omega, by simpa [Image.insideDisc, InDisc] using h2⟩
      obtain ⟨out, e', so'⟩ := ih s
      refine ⟨out, by rw [loop, hb]; exact e', so'.congr ?_⟩
      intro x y hx hy
      simp only [List.mem_cons]
      by_cases hp : (x, y) = p
      · subst hp
        have : ¬ InDisc px py r x y := fun h => hc ⟨⟨hx, hy⟩, h⟩
        simp [this]
      · simp [hp]

theorem upToIncl_ok {p r : Nat} (h1 : r ≤ p) (h2 : p + r < 2 ^ 64 - 1) :
    upToIncl (wsub p r) (wadd p r) = .ok (List.range' (p - r) (2 * r + 1)) := by
  rw [wsub_of_le h1 (by omega), wadd_of_lt (by omega), upToIncl, if_neg (by unfold W; omega)]
  congr 2; omega

theorem upToIncl_wrap {p r : Nat} (h1 : p < r) (h2 : p + r < 2 ^ 63) :
    upToIncl (wsub p r) (wadd p r) = .ok [] := by
  rw [wsub_of_gt h1 (by omega), wadd_of_lt (by omega), upToIncl, if_neg (by unfold W; omega)]
  rw [show p + r + 1 - (p + 2 ^ 64 - r) = 0 by omega]; rfl

theorem upToIncl_small {p r : Nat} (h2 : p + r < 2 ^ 63) :
    ∃ l, upToIncl (wsub p r) (wadd p r) = .ok l := by
  by_cases h : r ≤ p
  · exact ⟨_, upToIncl_ok h (by omega)⟩
  · exact ⟨_, upToIncl_wrap (by omega) h2⟩

theorem inDisc_range {px py r x y : Nat} (h : InDisc px py r x y) :
    px < x + r ∧ x < px + r ∧ py < y + r ∧ y < py + r := by
  unfold InDisc at h
  refine ⟨?_, ?_, ?_, ?_⟩
  all_goals
    by_contra hc
    push Not at hc
    have := sq_nonneg ((x : Int) - px)
    have := sq_nonneg ((y : Int) - py)
  · have h1 : (r : Int) ≤ px - x := by omega
    nlinarith
  · have h1 : (r : Int) ≤ x - px := by omega
    nlinarith
  · have h1 : (r : Int) ≤ py - y := by omega
    nlinarith
  · have h1 : (r : Int) ≤ y - py := by omega
    nlinarith

/-! ### Circles -/

theorem setOffs_shows {im : Image α} {w h : Nat} {f : Nat → Nat → α} (s : im.Shows w h f)
    {px py : Nat} {d : Int × Int} (hw : w ≤ 2 ^ 63) (hh : h ≤ 2 ^ 63) (hx : px < 2 ^ 63)
    (hy : py < 2 ^ 63) (h1 : d.1.natAbs < 2 ^ 62) (h2 : d.2.natAbs < 2 ^ 62) (v : α) :
    ∃ out, Image.setOffs px py v im d = .ok out ∧
      out.Shows w h fun x y =>
        if (x : Int) = px + d.1 ∧ (y : Int) = py + d.2 then v else f x y := by
  have off : ∀ (p : Nat) (e : Int) (n : Nat), p < 2 ^ 63 → e.natAbs < 2 ^ 62 → n ≤ 2 ^ 63 →
      (Image.offs p e < n ↔ 0 ≤ (p : Int) + e ∧ (p : Int) + e < n) ∧
      (Image.offs p e < n → (Image.offs p e : Int) = p + e) := by
    intro p e n hp he hn
    unfold Image.offs
    by_cases h0 : 0 ≤ (p : Int) + e
    · rw [Int.emod_eq_of_lt h0 (by omega)]
      constructor <;> omega
    · have : ((p : Int) + e) % 2 ^ 64 = p + e + 2 ^ 64 := by
        rw [← Int.add_emod_right, Int.emod_eq_of_lt (by omega) (by omega)]
      rw [this]
      constructor <;> omega
  obtain ⟨a1, a2⟩ := off px d.1 w hx h1 hw
  obtain ⟨b1, b2⟩ := off py d.2 h hy h2 hh
  unfold Image.setOffs Image.setTuple
  rw [if_neg (by simp [s.size])]
  by_cases hin : Image.offs px d.1 < w ∧ Image.offs py d.2 < h
  · have hb : InBounds im.size [Image.offs px d.1, Image.offs py d.2] := s.bounds hin.1 hin.2
    rw [if_pos ((checkTupleEach_iff (by simp [s.size])).2 hb), s.wf.calculateIndex hb]
    simp only [Res.ok_bind, vset_eq_ok v (s.wf.rowMajor_lt hb)]
    refine ⟨_, rfl, (s.set_shows hin.1 hin.2 v).congr ?_⟩
    intro x y hx hy
    have e1 := a2 hin.1
    have e2 := b2 hin.2
    unfold updPx
    by_cases hp : x = Image.offs px d.1 ∧ y = Image.offs py d.2
    · rw [if_pos hp, if_pos (by omega)]
    · rw [if_neg hp, if_neg (by omega)]
  · have hb : ¬ InBounds im.size [Image.offs px d.1, Image.offs py d.2] := by
      rw [s.size, inBounds2]; exact hin
    rw [if_neg (fun h => hb ((checkTupleEach_iff (by simp [s.size])).1 h))]
    refine ⟨_, rfl, s.congr ?_⟩
    intro x y hx hy
    rw [if_neg]
    rintro ⟨e1, e2⟩
    exact hin ⟨a1.2 (by omega), b1.2 (by omega)⟩

theorem loop_setOffs {im : Image α} {w h : Nat} {f : Nat → Nat → α} (s : im.Shows w h f)
    {px py : Nat} (hw : w ≤ 2 ^ 63) (hh : h ≤ 2 ^ 63) (hx : px < 2 ^ 63) (hy : py < 2 ^ 63) (v : α)
    (l : List (Int × Int)) (hl : ∀ d ∈ l, d.1.natAbs < 2 ^ 62 ∧ d.2.natAbs < 2 ^ 62) :
    ∃ out, loop (Image.setOffs px py v) l im = .ok out ∧
      out.Shows w h fun x y => if ((x : Int) - px, (y : Int) - py) ∈ l then v else f x y := by
  induction l generalizing im f with
  | nil => exact ⟨im, rfl, by simpa using s⟩
  | cons d l ih =>
    obtain ⟨o, e, so⟩ := setOffs_shows s hw hh hx hy (hl d (by simp)).1 (hl d (by simp)).2 v
    obtain ⟨out, e', so'⟩ := ih so (fun q hq => hl q (by simp [hq]))
    refine ⟨out, by rw [loop, e]; exact e', so'.congr ?_⟩
    intro x y _ _
    simp only [List.mem_cons]
    by_cases h1 : ((x : Int) - px, (y : Int) - py) ∈ l
    · simp [h1]
    · by_cases h2 : ((x : Int) - px, (y : Int) - py) = d
      · subst h2
        simp
      · have : ¬ ((x : Int) = px + d.1 ∧ (y : Int) = py + d.2) := by
          rintro ⟨h3, h4⟩
          exact h2 (Prod.ext (by simp only; omega) (by simp only; omega))
        simp [h1, h2, this]

theorem mem_octants {X Y : Int} {k m : Nat} : (X, Y) ∈ Image.octants k m ↔
    (X.natAbs = k ∧ Y.natAbs = m) ∨ (X.natAbs = m ∧ Y.natAbs = k) := by
  simp only [Image.octants, List.mem_cons, Prod.mk.injEq, List.not_mem_nil, or_false]
  omega

theorem circleStep_ok {r k m : Nat} (hr : r < 2 ^ 31) (hk : k ≤ r) (h1 : 1 ≤ m) (hm : m ≤ r) :
    Image.circleStep r k m =
      .ok ((if k * k + (m - 1) * (m - 1) < r * r then m else m - 1 : Nat) : Int) := by
  obtain ⟨n, rfl⟩ : ∃ n, m = n + 1 := ⟨m - 1, by omega⟩
  have a1 : k * k ≤ r * r := Nat.mul_le_mul hk hk
  have a2 : n * n ≤ r * r := Nat.mul_le_mul (by omega) (by omega)
  have a3 : r * r < 2 ^ 62 := by
    calc r * r ≤ (2 ^ 31 - 1) * (2 ^ 31 - 1) := Nat.mul_le_mul (by omega) (by omega)
      _ < 2 ^ 62 := by norm_num
  unfold Image.circleStep
  have e0 : ((n + 1 : Nat) : Int) - 1 = (n : Nat) := by omega
  have e1 : (k : Int) * k = ((k * k : Nat) : Int) := by push_cast; ring
  have e2 : (n : Int) * n = ((n * n : Nat) : Int) := by push_cast; ring
  rw [e0, chkLong_ok (by omega) (by omega)]
  simp only [Res.ok_bind]
  rw [e1, chkLong_ok (by omega) (by omega)]
  simp only [Res.ok_bind]
  rw [e2, chkLong_ok (by omega) (by omega)]
  simp only [Res.ok_bind]
  rw [chkLong_ok (by omega) (by omega)]
  simp only [Res.ok_bind, Nat.add_sub_cancel]
  have e3 : ((((k * k : Nat) : Int) + ((n * n : Nat) : Int)) % 2 ^ 64).toNat = k * k + n * n := by
    rw [Int.emod_eq_of_lt (by omega) (by omega)]; omega
  rw [e3, wmul_of_lt (by omega)]
  split <;> rfl

/-- What holds before iteration `k` of the circle loop, with `y = m`. -/
def CircleInv (r k m : Nat) : Prop :=
  1 ≤ m ∧ m ≤ r ∧ k ≤ m + 1 ∧ (k = 0 → m = r) ∧
    ∀ j, k = j + 1 → r * r ≤ j * j + m * m ∧ j * j + (m - 1) * (m - 1) < r * r

/-- What the point drawn in iteration `k` satisfies. -/
theorem circle_next {r k m m' : Nat} (hi : CircleInv r k m) (hk : k ≤ m)
    (hm' : m' = if k * k + (m - 1) * (m - 1) < r * r then m else m - 1) :
    m' ≤ r ∧ k ≤ m' + 1 ∧ r * r ≤ k * k + m' * m' ∧
    (k ≤ m' → k * k + (m' - 1) * (m' - 1) < r * r) ∧
    (m' < k → k = m' + 1 ∧ m' * m' + m' * m' < r * r) := by
  obtain ⟨h1, h2, _, h4, h5⟩ := hi
  obtain ⟨n, rfl⟩ : ∃ n, m = n + 1 := ⟨m - 1, by omega⟩
  simp only [Nat.add_sub_cancel] at hm' h5
  by_cases hd : k * k + n * n < r * r
  · rw [if_pos hd] at hm'
    subst hm'
    refine ⟨h2, by omega, ?_, fun _ => hd, by omega⟩
    rcases Nat.eq_zero_or_pos k with h0 | h0
    · rw [h4 h0]; exact Nat.le_add_left _ _
    · obtain ⟨j, rfl⟩ : ∃ j, k = j + 1 := ⟨k - 1, by omega⟩
      have := (h5 j rfl).1
      nlinarith
  · rw [if_neg hd] at hm'
    subst hm'
    have hk1 : 1 ≤ k := by
      rcases Nat.eq_zero_or_pos k with h0 | h0
      · have := h4 h0
        subst h0; rw [← this] at hd
        exact absurd (by nlinarith) hd
      · exact h0
    obtain ⟨j, rfl⟩ : ∃ j, k = j + 1 := ⟨k - 1, by omega⟩
    have h6 := (h5 j rfl).2
    refine ⟨by omega, by omega, by omega, ?_, ?_⟩
    · intro hle
      obtain ⟨t, rfl⟩ : ∃ t, m' = t + 1 := ⟨m' - 1, by omega⟩
      simp only [Nat.add_sub_cancel]
      nlinarith
    · intro hlt
      have : j = m' := by omega
      subst this
      exact ⟨rfl, h6⟩

/-- The offsets drawn in iteration `k` are the points of the circle whose smaller coordinate is `k`
(and, in the last iteration, possibly points drawn before). -/
theorem circle_iter {r k m' : Nat} (h2 : k ≤ m' + 1) (h3 : r * r ≤ k * k + m' * m')
    (h4 : k ≤ m' → k * k + (m' - 1) * (m' - 1) < r * r)
    (h5 : m' < k → k = m' + 1 ∧ m' * m' + m' * m' < r * r) (X Y : Int) :
    ((X, Y) ∈ Image.octants k m' ∨ OnCircle r X Y ∧ min X.natAbs Y.natAbs < k) ↔
      OnCircle r X Y ∧ min X.natAbs Y.natAbs < k + 1 := by
  rw [mem_octants]
  unfold OnCircle
  obtain ⟨x, hx⟩ : ∃ x, x = X.natAbs := ⟨_, rfl⟩
  obtain ⟨y, hy⟩ : ∃ y, y = Y.natAbs := ⟨_, rfl⟩
  rw [← hx, ← hy]
  obtain ⟨a, ha⟩ : ∃ a, a = min x y := ⟨_, rfl⟩
  obtain ⟨b, hb⟩ : ∃ b, b = max x y := ⟨_, rfl⟩
  rw [← ha, ← hb]
  have hab : a ≤ b := by omega
  have hxy : (x = a ∧ y = b) ∨ (x = b ∧ y = a) := by omega
  constructor
  · rintro (h | h)
    · by_cases hle : k ≤ m'
      · have : a = k ∧ b = m' := by omega
        obtain ⟨rfl, rfl⟩ := this
        exact ⟨⟨h3, h4 hle⟩, by omega⟩
      · obtain ⟨e, h6⟩ := h5 (by omega)
        have : a = m' ∧ b = k := by omega
        obtain ⟨rfl, rfl⟩ := this
        refine ⟨⟨by omega, ?_⟩, by omega⟩
        rw [e, Nat.add_sub_cancel]; exact h6
    · exact ⟨h.1, by omega⟩
  · rintro ⟨⟨g1, g2⟩, h⟩
    by_cases hlt : a < k
    · exact .inr ⟨⟨g1, g2⟩, hlt⟩
    · have hak : a = k := by omega
      subst hak
      left
      have hbm : b = m' := by
        rcases Nat.lt_trichotomy b m' with hlt | he | hgt
        · have h6 := h4 (by omega)
          obtain ⟨t, rfl⟩ : ∃ t, m' = t + 1 := ⟨m' - 1, by omega⟩
          rw [Nat.add_sub_cancel] at h6
          have : b * b ≤ t * t := Nat.mul_le_mul (by omega) (by omega)
          omega
        · exact he
        · obtain ⟨t, rfl⟩ : ∃ t, b = t + 1 := ⟨b - 1, by omega⟩
          rw [Nat.add_sub_cancel] at g2
          have : m' * m' ≤ t * t := Nat.mul_le_mul (by omega) (by omega)
          omega
      omega

theorem circle_loop {w h : Nat} {px py r : Nat} (hw : w ≤ 2 ^ 63) (hh : h ≤ 2 ^ 63)
    (hx : px < 2 ^ 63) (hy : py < 2 ^ 63) (hr : r < 2 ^ 31) (v : α) (f : Nat → Nat → α) :
    ∀ (n k m : Nat) (im : Image α), CircleInv r k m → k ≤ m → r ≤ k + n →
      im.Shows w h (fun x y => if OnCircle r ((x : Int) - px) ((y : Int) - py) ∧
        min ((x : Int) - px).natAbs ((y : Int) - py).natAbs < k then v else f x y) →
      ∀ fuel, n + 2 ≤ fuel → ∃ out, Image.circleLoop px py r v fuel k m im = some (.ok out) ∧
        out.Shows w h fun x y =>
          if OnCircle r ((x : Int) - px) ((y : Int) - py) then v else f x y := by
  have stop : ∀ (fuel k m' : Nat) (im : Image α), ¬ k + 1 ≤ m' →
      Image.circleLoop px py r v (fuel + 1) ((k : Int) + 1) m' im = some (.ok im) := by
    intro fuel k m' im hlt
    rw [Image.circleLoop, if_neg (by omega)]
  have step : ∀ (k m : Nat) (im : Image α), CircleInv r k m → k ≤ m →
      im.Shows w h (fun x y => if OnCircle r ((x : Int) - px) ((y : Int) - py) ∧
        min ((x : Int) - px).natAbs ((y : Int) - py).natAbs < k then v else f x y) →
      ∃ m' out', (m' ≤ r ∧ (k + 1 ≤ m' → CircleInv r (k + 1) m')) ∧
        (¬ k + 1 ≤ m' → out'.Shows w h (fun x y =>
            if OnCircle r ((x : Int) - px) ((y : Int) - py) ∧
              min ((x : Int) - px).natAbs ((y : Int) - py).natAbs < k + 1 then v else f x y) →
          out'.Shows w h (fun x y => if OnCircle r ((x : Int) - px) ((y : Int) - py) then v
            else f x y)) ∧
        (∀ {fuel}, Image.circleLoop px py r v (fuel + 1) k m im =
          Image.circleLoop px py r v fuel ((k : Int) + 1) m' out') ∧
        out'.Shows w h (fun x y => if OnCircle r ((x : Int) - px) ((y : Int) - py) ∧
          min ((x : Int) - px).natAbs ((y : Int) - py).natAbs < k + 1 then v else f x y) := by
    intro k m im hi hk s
    obtain ⟨m', hm'⟩ : ∃ m', m' = if k * k + (m - 1) * (m - 1) < r * r then m else m - 1 := ⟨_, rfl⟩
    obtain ⟨n1, n2, n3, n4, n5⟩ := circle_next hi hk hm'
    obtain ⟨h1, h2, _⟩ := hi
    have hst := circleStep_ok hr (by omega : k ≤ r) h1 h2
    rw [← hm'] at hst
    obtain ⟨out', e, so⟩ := loop_setOffs s hw hh hx hy v (Image.octants k m') (by
      rintro ⟨X, Y⟩ hd
      rw [mem_octants] at hd
      simp only
      omega)
    refine ⟨m', out', ⟨n1, fun hlt => ?_⟩, fun hlt so => so.congr ?_, ?_, so.congr ?_⟩
    · refine ⟨by omega, n1, by omega, by omega, ?_⟩
      intro j hj
      have : j = k := by omega
      subst this
      exact ⟨n3, n4 (by omega)⟩
    · intro x y _ _
      by_cases hc : OnCircle r ((x : Int) - px) ((y : Int) - py)
      · rw [if_pos hc, if_pos]
        refine ⟨hc, ?_⟩
        by_contra hge
        unfold OnCircle at hc
        obtain ⟨_, hc⟩ := hc
        obtain ⟨a, ha⟩ : ∃ a, a = min ((x : Int) - px).natAbs ((y : Int) - py).natAbs := ⟨_, rfl⟩
        obtain ⟨b, hb⟩ : ∃ b, b = max ((x : Int) - px).natAbs ((y : Int) - py).natAbs := ⟨_, rfl⟩
        rw [← ha] at hge
        rw [← ha, ← hb] at hc
        have hab : a ≤ b := by omega
        have q1 : k * k ≤ a * a := Nat.mul_le_mul (by omega) (by omega)
        have q2 : k * k ≤ (b - 1) * (b - 1) := Nat.mul_le_mul (by omega) (by omega)
        have q3 : m' * m' ≤ k * k := Nat.mul_le_mul (by omega) (by omega)
        omega
      · simp [hc]
    · intro fuel
      rw [Image.circleLoop, if_pos (by omega), hst]
      simp only [e]
    · intro x y _ _
      have := circle_iter n2 n3 n4 n5 ((x : Int) - px) ((y : Int) - py)
      by_cases h1 : ((x : Int) - px, (y : Int) - py) ∈ Image.octants k m'
      · rw [if_pos h1, if_pos (this.1 (.inl h1))]
      · rw [if_neg h1]
        by_cases h2 : OnCircle r ((x : Int) - px) ((y : Int) - py) ∧
            min ((x : Int) - px).natAbs ((y : Int) - py).natAbs < k
        · rw [if_pos h2, if_pos (this.1 (.inr h2))]
        · rw [if_neg h2, if_neg (fun h => (this.2 h).elim h1 h2)]
  intro n
  induction n with
  | zero =>
    intro k m im hi hk hn s fuel hf
    obtain ⟨m', out', g1, g2, e, so⟩ := step k m im hi hk s
    obtain ⟨fuel, rfl⟩ : ∃ t, fuel = t + 2 := ⟨fuel - 2, by omega⟩
    obtain ⟨hm1, hm2, _⟩ := hi
    have hlt : ¬ k + 1 ≤ m' := by omega
    refine ⟨out', by rw [e]; exact stop _ _ _ _ hlt, g2 hlt so⟩
  | succ n ih =>
    intro k m im hi hk hn s fuel hf
    obtain ⟨m', out', g1, g2, e, so⟩ := step k m im hi hk s
    obtain ⟨fuel, rfl⟩ : ∃ t, fuel = t + 3 := ⟨fuel - 3, by omega⟩
    by_cases hlt : k + 1 ≤ m'
    · obtain ⟨out, e', so'⟩ := ih (k + 1) m' out' (g1.2 hlt) hlt (by omega) so (fuel + 2) (by omega)
      exact ⟨out, by rw [e, ← e']; rfl, so'⟩
    · refine ⟨out', by rw [e]; exact stop _ _ _ _ hlt, g2 hlt so⟩

/-! ### Lines -/

/-- Position of the line after `a` steps along x and `b` steps along y, `k` iterations before the
end; `dx` and `dn` are the total steps. -/
structure LineInv (dx dn a b : Int) (k : Nat) : Prop where
  a0 : 0 ≤ a
  b0 : 0 ≤ b
  adx : a ≤ dx
  bdn : b ≤ dn
  lo : -max dx dn ≤ 2 * (dx * b - dn * a)
  hi : 2 * (dx * b - dn * a) ≤ max dx dn
  kx : dn ≤ dx → k = dx - a
  ky : dx < dn → k = dn - b

theorem LineInv.last {dx dn a b : Int} (h : LineInv dx dn a b 0) : a = dx ∧ b = dn := by
  obtain ⟨a0, b0, ha, hb, lo, hi, kx, ky⟩ := h
  by_cases hc : dn ≤ dx
  · have e : a = dx := by have := kx hc; omega
    subst e
    refine ⟨rfl, ?_⟩
    rw [max_eq_left hc] at lo hi
    by_contra hne
    have : b + 1 ≤ dn := by omega
    have : a * (b + 1) ≤ a * dn := mul_le_mul_of_nonneg_left this a0
    have e1 : a * (b + 1) = a * b + a := by ring
    have e2 : a * dn = dn * a := by ring
    have : a = 0 := by omega
    omega
  · have e : b = dn := by have := ky (by omega); omega
    subst e
    refine ⟨?_, rfl⟩
    rw [max_eq_right (by omega)] at lo hi
    by_contra hne
    have : a + 1 ≤ dx := by omega
    have : b * (a + 1) ≤ b * dx := mul_le_mul_of_nonneg_left this b0
    have e1 : b * (a + 1) = b * a + b := by ring
    have e2 : b * dx = dx * b := by ring
    have : b = 0 := by omega
    omega

theorem LineInv.notLast {dx dn a b : Int} {k : Nat} (h : LineInv dx dn a b (k + 1)) :
    ¬ (a = dx ∧ b = dn) := by
  rintro ⟨rfl, rfl⟩
  by_cases hc : b ≤ a
  · have := h.kx hc; omega
  · have := h.ky (by omega); omega

/-- One step of the line. -/
theorem LineInv.step {dx dn a b : Int} {k : Nat} (h : LineInv dx dn a b (k + 1)) {err : Int}
    (he : err = dx * b - dn * a + dx - dn) :
    ∃ a' b', LineInv dx dn a' b' k ∧
      a' = (if 2 * err ≥ -dn then a + 1 else a) ∧ b' = (if 2 * err ≤ dx then b + 1 else b) := by
  obtain ⟨a0, b0, ha, hb, lo, hi, kx, ky⟩ := h
  obtain ⟨D, hD⟩ : ∃ D, D = dx * b - dn * a := ⟨_, rfl⟩
  rw [← hD] at lo hi he
  have e1 : dx * (b + 1) - dn * a = D + dx := by rw [hD]; ring
  have e2 : dx * b - dn * (a + 1) = D - dn := by rw [hD]; ring
  have e3 : dx * (b + 1) - dn * (a + 1) = D + dx - dn := by rw [hD]; ring
  by_cases hc : dn ≤ dx
  · rw [max_eq_left hc] at lo hi
    have hk := kx hc
    have sx : 2 * err ≥ -dn := by omega
    by_cases hy : 2 * err ≤ dx
    · refine ⟨a + 1, b + 1, ⟨by omega, by omega, by omega, ?_, ?_, ?_, by omega, by omega⟩,
        by rw [if_pos sx], by rw [if_pos hy]⟩
      · by_contra hgt
        have q1 : dx * (dn + 1) ≤ dx * (b + 1) := mul_le_mul_of_nonneg_left (by omega) (by omega)
        have q2 : dn * (a + 1) ≤ dn * dx := mul_le_mul_of_nonneg_left (by omega) (by omega)
        have q3 : dx * (dn + 1) = dn * dx + dx := by ring
        omega
      · rw [e3, max_eq_left hc]; omega
      · rw [e3, max_eq_left hc]; omega
    · refine ⟨a + 1, b, ⟨by omega, by omega, by omega, hb, ?_, ?_, by omega, by omega⟩,
        by rw [if_pos sx], by rw [if_neg hy]⟩
      · rw [e2, max_eq_left hc]; omega
      · rw [e2, max_eq_left hc]; omega
  · rw [max_eq_right (by omega)] at lo hi
    have hk := ky (by omega)
    have sy : 2 * err ≤ dx := by omega
    by_cases hx : 2 * err ≥ -dn
    · refine ⟨a + 1, b + 1, ⟨by omega, by omega, ?_, by omega, ?_, ?_, by omega, by omega⟩,
        by rw [if_pos hx], by rw [if_pos sy]⟩
      · by_contra hgt
        have q1 : dn * (dx + 1) ≤ dn * (a + 1) := mul_le_mul_of_nonneg_left (by omega) (by omega)
        have q2 : dx * (b + 1) ≤ dx * dn := mul_le_mul_of_nonneg_left (by omega) (by omega)
        have q3 : dn * (dx + 1) = dx * dn + dn := by ring
        omega
      · rw [e3, max_eq_right (by omega)]; omega
      · rw [e3, max_eq_right (by omega)]; omega
    · refine ⟨a, b + 1, ⟨by omega, by omega, ha, by omega, ?_, ?_, by omega, by omega⟩,
        by rw [if_neg hx], by rw [if_pos sy]⟩
      · rw [e1, max_eq_right (by omega)]; omega
      · rw [e1, max_eq_right (by omega)]; omega

theorem lineStep_ok {dx dn sx sy x y err : Int} (h1 : 0 ≤ dx) (h2 : dx < 2 ^ 61) (h3 : 0 ≤ dn)
    (h4 : dn < 2 ^ 61) (hs : sx = 1 ∨ sx = -1) (hs' : sy = 1 ∨ sy = -1)
    (he : -(2 ^ 62) ≤ err) (he' : err < 2 ^ 62) (hx : 0 ≤ x) (hx' : x < 2 ^ 61) (hy : 0 ≤ y)
    (hy' : y < 2 ^ 61) :
    Image.lineStep dx (-dn) sx sy x y err =
      .ok (if 2 * err ≥ -dn then x + sx else x, if 2 * err ≤ dx then y + sy else y,
        err + (if 2 * err ≥ -dn then -dn else 0) + (if 2 * err ≤ dx then dx else 0)) := by
  unfold Image.lineStep
  rw [chkLong_ok (by omega) (by omega)]
  simp only [Res.ok_bind]
  have c1 : -(2 ^ 63) ≤ x + sx ∧ x + sx < 2 ^ 63 := by omega
  have c2 : -(2 ^ 63) ≤ y + sy ∧ y + sy < 2 ^ 63 := by omega
  by_cases hA : 2 * err ≥ -dn
  · rw [if_pos hA, chkLong_ok (by omega) (by omega), Res.ok_bind, chkLong_ok c1.1 c1.2]
    simp only [Res.ok_bind, if_pos hA]
    by_cases hB : 2 * err ≤ dx
    · rw [if_pos hB, chkLong_ok (by omega) (by omega), Res.ok_bind, chkLong_ok c2.1 c2.2]
      simp only [Res.ok_bind, if_pos hB]
    · simp only [if_neg hB, Res.ok_bind, add_zero]
  · simp only [if_neg hA, Res.ok_bind]
    by_cases hB : 2 * err ≤ dx
    · rw [if_pos hB, chkLong_ok (by omega) (by omega), Res.ok_bind, chkLong_ok c2.1 c2.2]
      simp only [Res.ok_bind, if_pos hB, add_zero]
    · simp only [if_neg hB, Res.ok_bind, add_zero]

theorem linePlot_shows {im : Image α} {w h : Nat} {f : Nat → Nat → α} (s : im.Shows w h f)
    (c : α) (x y : Int) :
    ∃ out, Image.linePlot c im x y = .ok out ∧
      out.Shows w h fun X Y => if ((X : Int), (Y : Int)) = (x, y) then c else f X Y := by
  unfold Image.linePlot
  rw [s.width, s.height]
  by_cases hc : 0 ≤ x ∧ x < (w : Int) ∧ 0 ≤ y ∧ y < (h : Int)
  · rw [if_pos hc]
    obtain ⟨o, e, so⟩ := s.set2 (x := x.toNat) (y := y.toNat) (by omega) (by omega) c
    refine ⟨o, e, so.congr ?_⟩
    intro X Y _ _
    unfold updPx
    by_cases hp : X = x.toNat ∧ Y = y.toNat
    · rw [if_pos hp, if_pos (Prod.ext (by simp only; omega) (by simp only; omega))]
    · rw [if_neg hp, if_neg]
      intro h
      simp only [Prod.mk.injEq] at h
      omega
  · rw [if_neg hc]
    refine ⟨im, rfl, s.congr ?_⟩
    intro X Y hX hY
    rw [if_neg]
    intro h
    simp only [Prod.mk.injEq] at h
    omega

theorem line_loop {w h : Nat} {x1 y1 x2 y2 dx dn sx sy : Int} (c : α)
    (hx1 : 0 ≤ x1 ∧ x1 < 2 ^ 61) (hy1 : 0 ≤ y1 ∧ y1 < 2 ^ 61)
    (hx2 : 0 ≤ x2 ∧ x2 < 2 ^ 61) (hy2 : 0 ≤ y2 ∧ y2 < 2 ^ 61)
    (hdx : 0 ≤ dx) (hdn : 0 ≤ dn) (hsx : sx = 1 ∨ sx = -1) (hsy : sy = 1 ∨ sy = -1)
    (ex : x2 - x1 = sx * dx) (ey : y2 - y1 = sy * dn) :
    ∀ (k : Nat) (a b : Int) (im : Image α) (f : Nat → Nat → α), LineInv dx dn a b k →
      im.Shows w h f → ∀ fuel, k + 1 ≤ fuel →
      ∃ out path, Image.lineLoop c x2 y2 dx (-dn) sx sy fuel (x1 + sx * a) (y1 + sy * b)
          (dx * b - dn * a + dx - dn) im = some (.ok out) ∧
        path.head? = some (x1 + sx * a, y1 + sy * b) ∧ path.getLast? = some (x2, y2) ∧
        path.length = k + 1 ∧ List.IsChain Adjacent path ∧
        (∀ q ∈ path, ∃ a b, 0 ≤ a ∧ 0 ≤ b ∧ -max dx dn ≤ 2 * (dx * b - dn * a) ∧
          2 * (dx * b - dn * a) ≤ max dx dn ∧ q = (x1 + sx * a, y1 + sy * b)) ∧
        out.Shows w h fun X Y => if ((X : Int), (Y : Int)) ∈ path then c else f X Y := by
  have hends : ∀ a b : Int, (x1 + sx * a = x2 ∧ y1 + sy * b = y2) ↔ (a = dx ∧ b = dn) := by
    intro a b
    rcases hsx with rfl | rfl <;> rcases hsy with rfl | rfl <;> omega
  intro k
  induction k with
  | zero =>
    intro a b im f hi s fuel hf
    obtain ⟨fuel, rfl⟩ : ∃ t, fuel = t + 1 := ⟨fuel - 1, by omega⟩
    have hl := (hends a b).2 hi.last
    obtain ⟨out, e, so⟩ := linePlot_shows s c (x1 + sx * a) (y1 + sy * b)
    refine ⟨out, [(x1 + sx * a, y1 + sy * b)], ?_, rfl, ?_, rfl, ?_, ?_, ?_⟩
    · rw [Image.lineLoop, e]; simp only [if_pos hl]
    · rw [hl.1, hl.2]; rfl
    · exact List.IsChain.singleton _
    · intro q hq
      rw [List.mem_singleton] at hq
      exact ⟨a, b, hi.a0, hi.b0, hi.lo, hi.hi, hq⟩
    · simpa using so
  | succ k ih =>
    intro a b im f hi s fuel hf
    obtain ⟨fuel, rfl⟩ : ∃ t, fuel = t + 1 := ⟨fuel - 1, by omega⟩
    have hl : ¬ (x1 + sx * a = x2 ∧ y1 + sy * b = y2) := fun h => hi.notLast ((hends a b).1 h)
    obtain ⟨out1, e, so⟩ := linePlot_shows s c (x1 + sx * a) (y1 + sy * b)
    obtain ⟨a', b', hi', ha', hb'⟩ := hi.step (err := dx * b - dn * a + dx - dn) rfl
    obtain ⟨out, path, p1, p2, p3, p4, p5, p6, p7⟩ := ih a' b' out1 _ hi' so fuel (by omega)
    have hxr : 0 ≤ x1 + sx * a ∧ x1 + sx * a < 2 ^ 61 := by
      have := hi.a0; have := hi.adx
      rcases hsx with rfl | rfl <;> omega
    have hyr : 0 ≤ y1 + sy * b ∧ y1 + sy * b < 2 ^ 61 := by
      have := hi.b0; have := hi.bdn
      rcases hsy with rfl | rfl <;> omega
    have hdx' : dx < 2 ^ 61 := by rcases hsx with rfl | rfl <;> omega
    have hdn' : dn < 2 ^ 61 := by rcases hsy with rfl | rfl <;> omega
    obtain ⟨D, hD⟩ : ∃ D, D = dx * b - dn * a := ⟨_, rfl⟩
    have hDb : -(2 ^ 61) ≤ 2 * D ∧ 2 * D ≤ 2 ^ 61 := by
      have := hi.lo; have := hi.hi
      rw [← hD] at *
      omega
    have hst := lineStep_ok (sx := sx) (sy := sy) (x := x1 + sx * a) (y := y1 + sy * b)
      (err := dx * b - dn * a + dx - dn) hdx hdx' hdn hdn' hsx hsy (by omega) (by omega)
      hxr.1 hxr.2 hyr.1 hyr.2
    have hnx : (if 2 * (dx * b - dn * a + dx - dn) ≥ -dn then x1 + sx * a + sx else x1 + sx * a) =
        x1 + sx * a' := by
      rw [ha']; split
      · ring
      · rfl
    have hny : (if 2 * (dx * b - dn * a + dx - dn) ≤ dx then y1 + sy * b + sy else y1 + sy * b) =
        y1 + sy * b' := by
      rw [hb']; split
      · ring
      · rfl
    have hne : dx * b - dn * a + dx - dn +
        (if 2 * (dx * b - dn * a + dx - dn) ≥ -dn then -dn else 0) +
        (if 2 * (dx * b - dn * a + dx - dn) ≤ dx then dx else 0) =
        dx * b' - dn * a' + dx - dn := by
      rw [ha', hb']
      split <;> split <;> ring
    rw [hnx, hny, hne] at hst
    refine ⟨out, (x1 + sx * a, y1 + sy * b) :: path, ?_, rfl, ?_, ?_, ?_, ?_, ?_⟩
    · rw [Image.lineLoop, e]
      simp only [if_neg hl, hst]
      exact p1
    · cases path with
      | nil => simp at p2
      | cons q qs => rw [List.getLast?_cons_cons]; exact p3
    · simp [p4]
    · cases path with
      | nil => simp at p2
      | cons q qs =>
        simp only [List.head?_cons, Option.some.injEq] at p2
        rw [List.isChain_cons_cons]
        refine ⟨?_, p5⟩
        rw [p2]
        unfold Adjacent
        simp only
        rw [show x1 + sx * a' - (x1 + sx * a) = sx * (a' - a) by ring,
          show y1 + sy * b' - (y1 + sy * b) = sy * (b' - b) by ring, abs_le, abs_le]
        have q1 : 0 ≤ a' - a ∧ a' - a ≤ 1 := by rw [ha']; split <;> omega
        have q2 : 0 ≤ b' - b ∧ b' - b ≤ 1 := by rw [hb']; split <;> omega
        rcases hsx with rfl | rfl <;> rcases hsy with rfl | rfl <;> omega
    · intro q hq
      rcases List.mem_cons.1 hq with rfl | hq
      · exact ⟨a, b, hi.a0, hi.b0, hi.lo, hi.hi, rfl⟩
      · exact p6 q hq
    · refine p7.congr ?_
      intro X Y _ _
      simp only [List.mem_cons]
      by_cases h1 : ((X : Int), (Y : Int)) ∈ path
      · simp [h1]
      · simp [h1]

end TinyDIP
