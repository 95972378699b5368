import Verif.Model.Distance
import Verif.Spec.Distance
import Verif.Props.Arith

/-!
# Lemmas about distances
-/

namespace TinyDIP.Distance

open TinyDIP TinyDIP.Props Image

variable {α β C : Type}

theorem zipSq_sum_nonneg (l m : List ℝ) : 0 ≤ (List.zipWith (fun x y => (x - y) ^ 2) l m).sum := by
  apply List.sum_nonneg
  intro x hx
  obtain ⟨i, hi, rfl⟩ := List.getElem_of_mem hx
  rw [List.getElem_zipWith]
  positivity

theorem l2_nonneg (l m : List ℝ) : 0 ≤ l2 l m := Real.sqrt_nonneg _

theorem l2_sq (l m : List ℝ) : l2 l m ^ 2 = (List.zipWith (fun x y => (x - y) ^ 2) l m).sum :=
  Real.sq_sqrt (zipSq_sum_nonneg l m)

theorem l2_comm (l m : List ℝ) : l2 l m = l2 m l := by
  unfold l2
  rw [List.zipWith_comm]
  congr 2
  congr 1
  funext x y
  ring

theorem l2_cons (a b : ℝ) (l m : List ℝ) :
    l2 (a :: l) (b :: m) = Real.sqrt ((a - b) ^ 2 + l2 l m ^ 2) := by
  rw [l2_sq]; rfl

theorem l2_zero (l m : List ℝ) (h : l.length = m.length) : l2 l m = 0 ↔ l = m := by
  induction l generalizing m with
  | nil =>
    cases m with
    | nil => simp [l2]
    | cons b m => simp at h
  | cons a l ih =>
    cases m with
    | nil => simp at h
    | cons b m =>
      have h' : l.length = m.length := by simpa using h
      rw [l2_cons, Real.sqrt_eq_zero (by positivity), List.cons.injEq, ← ih m h']
      constructor
      · intro e
        have h1 := sq_nonneg (a - b)
        have h2 := sq_nonneg (l2 l m)
        exact ⟨sub_eq_zero.mp (pow_eq_zero_iff (two_ne_zero) |>.mp (by linarith)),
          pow_eq_zero_iff (two_ne_zero) |>.mp (by linarith)⟩
      · rintro ⟨rfl, e⟩
        rw [e]; ring

theorem minkowski2 (x y s t : ℝ) :
    Real.sqrt ((x + y) ^ 2 + (s + t) ^ 2) ≤ Real.sqrt (x ^ 2 + s ^ 2) + Real.sqrt (y ^ 2 + t ^ 2) := by
  have hA : 0 ≤ x ^ 2 + s ^ 2 := by positivity
  have hB : 0 ≤ y ^ 2 + t ^ 2 := by positivity
  have a := Real.sqrt_nonneg (x ^ 2 + s ^ 2)
  have b := Real.sqrt_nonneg (y ^ 2 + t ^ 2)
  have a2 := Real.sq_sqrt hA
  have b2 := Real.sq_sqrt hB
  have hc : x * y + s * t ≤ Real.sqrt (x ^ 2 + s ^ 2) * Real.sqrt (y ^ 2 + t ^ 2) := by
    rw [← Real.sqrt_mul hA]
    apply Real.le_sqrt_of_sq_le
    nlinarith [sq_nonneg (x * t - s * y)]
  rw [Real.sqrt_le_iff]
  refine ⟨by positivity, ?_⟩
  nlinarith

theorem l2_triangle (l m n : List ℝ) (h1 : l.length = m.length) (h2 : m.length = n.length) :
    l2 l n ≤ l2 l m + l2 m n := by
  induction l generalizing m n with
  | nil =>
    have : m = [] := List.length_eq_zero_iff.mp h1.symm
    subst this
    have : n = [] := List.length_eq_zero_iff.mp h2.symm
    subst this
    simp [l2]
  | cons a l ih =>
    cases m with
    | nil => simp at h1
    | cons b m =>
      cases n with
      | nil => simp at h2
      | cons c n =>
        have i := ih m n (by simpa using h1) (by simpa using h2)
        rw [l2_cons, l2_cons, l2_cons]
        refine le_trans ?_ (minkowski2 (a - b) (b - c) (l2 l m) (l2 m n))
        apply Real.sqrt_le_sqrt
        have p := l2_nonneg l n
        have : (l2 l n) ^ 2 ≤ (l2 l m + l2 m n) ^ 2 := by
          apply pow_le_pow_left₀ p i
        have e : a - b + (b - c) = a - c := by ring
        rw [e]
        linarith

theorem mapReduce2_iff [AddCommMonoid β] (f : α → α → β) (l m : List α) (h : l.length = m.length)
    (r : Res β) : MapReduce2 (· + ·) f 0 l m r ↔ r = .ok (List.zipWith f l m).sum := by
  have hs : ∀ l : List β, l.foldl (· + ·) 0 = l.sum := by
    intro l
    rw [List.sum_eq_foldl]
  rw [MapReduce2, if_neg (by simpa using h)]
  constructor
  · rintro ⟨v, rfl, hv⟩
    rw [stdReduce_eq _ add_assoc add_comm hv, hs]
  · rintro rfl
    refine ⟨_, rfl, ?_⟩
    rw [← hs]
    exact stdReduce_exists _ _ _

theorem euclid_iff (val : α → ℝ) (sub : α → α → ℝ) (hs : ∀ x y, sub x y = val x - val y)
    (a b : Image α) (wa : a.WF) (wb : b.WF) (h : a.size = b.size) (r : Res ℝ) :
    Euclid sub a b r ↔ r = .ok (l2 (a.data.map val) (b.data.map val)) := by
  have hl : a.data.length = b.data.length := by rw [wa.len, wb.len, h]
  rw [Euclid, if_neg (by simpa using h)]
  simp only [mapReduce2_iff _ _ _ hl]
  rw [exists_eq_left, Res.ok_bind, l2, List.zipWith_map]
  simp only [hs]

theorem map_inj_image (val : α → ℝ) (inj : Function.Injective val) (a b : Image α)
    (h : a.size = b.size) : a.data.map val = b.data.map val ↔ a = b := by
  constructor
  · intro e
    have := inj.list_map e
    cases a; cases b; simp_all
  · rintro rfl; rfl

theorem euclid_metric (val : α → ℝ) (inj : Function.Injective val) (sub : α → α → ℝ)
    (hs : ∀ x y, sub x y = val x - val y) (a b c : Image α) (wa : a.WF) (wb : b.WF) (wc : c.WF) :
    (a.size ≠ b.size → ∀ r, Euclid sub a b r ↔ r = .throw .runtime) ∧
    (a.size = b.size → ∃ d, (∀ r, Euclid sub a b r ↔ r = .ok d) ∧ (∀ r, Euclid sub b a r ↔ r = .ok d) ∧
      0 ≤ d ∧ d ^ 2 = (List.zipWith (fun x y => (val x - val y) ^ 2) a.data b.data).sum ∧
      (d = 0 ↔ a = b)) ∧
    (a.size = b.size → b.size = c.size → ∃ ab bc ac, Euclid sub a b (.ok ab) ∧ Euclid sub b c (.ok bc) ∧
      Euclid sub a c (.ok ac) ∧ ac ≤ ab + bc) := by
  refine ⟨fun h r => by rw [Euclid, if_pos h], fun h => ?_, fun h h' => ?_⟩
  · have hl : a.data.length = b.data.length := by rw [wa.len, wb.len, h]
    refine ⟨_, euclid_iff val sub hs a b wa wb h, ?_, l2_nonneg _ _, ?_, ?_⟩
    · rw [l2_comm]; exact euclid_iff val sub hs b a wb wa h.symm
    · rw [l2_sq, List.zipWith_map]
    · rw [l2_zero _ _ (by simpa using hl), map_inj_image val inj a b h]
  · have l1 : a.data.length = b.data.length := by rw [wa.len, wb.len, h]
    have l2' : b.data.length = c.data.length := by rw [wb.len, wc.len, h']
    exact ⟨_, _, _, (euclid_iff val sub hs a b wa wb h _).mpr rfl, (euclid_iff val sub hs b c wb wc h' _).mpr rfl,
      (euclid_iff val sub hs a c wa wc (h.trans h') _).mpr rfl,
      l2_triangle _ _ _ (by simpa using l1) (by simpa using l2')⟩

theorem sum_px3 (l : List (Px3 ℝ)) :
    l.sum = ⟨(l.map Px3.c0).sum, (l.map Px3.c1).sum, (l.map Px3.c2).sum⟩ := by
  induction l with
  | nil => rfl
  | cons p l ih =>
    rw [List.sum_cons, ih]
    rfl

theorem euclidPx3_iff (sub : C → C → ℝ) (a b : Image (Px3 C)) (h : a.data.length = b.data.length)
    (r : Res (Px3 ℝ)) :
    EuclidPx3 sub a b r ↔ r = .ok
      ⟨Real.sqrt (List.zipWith (fun p q => sub p.c0 q.c0 ^ 2) a.data b.data).sum,
       Real.sqrt (List.zipWith (fun p q => sub p.c1 q.c1 ^ 2) a.data b.data).sum,
       Real.sqrt (List.zipWith (fun p q => sub p.c2 q.c2 ^ 2) a.data b.data).sum⟩ := by
  have key := mapReduce2_iff (β := Px3 ℝ)
    (fun p q : Px3 C => (⟨sub p.c0 q.c0 ^ 2, sub p.c1 q.c1 ^ 2, sub p.c2 q.c2 ^ 2⟩ : Px3 ℝ)) a.data b.data h
  unfold EuclidPx3
  constructor
  · rintro ⟨s, hs, rfl⟩
    rw [(key s).mp hs, Res.ok_bind, sum_px3, List.map_zipWith, List.map_zipWith, List.map_zipWith]
  · rintro rfl
    refine ⟨_, (key _).mpr rfl, ?_⟩
    rw [Res.ok_bind, sum_px3, List.map_zipWith, List.map_zipWith, List.map_zipWith]

theorem euclidPx3_real (a b : Image (Px3 ℝ)) (h : a.data.length = b.data.length) (r : Res (Px3 ℝ)) :
    EuclidPx3 subReal a b r ↔ r = .ok
      ⟨l2 (a.data.map Px3.c0) (b.data.map Px3.c0), l2 (a.data.map Px3.c1) (b.data.map Px3.c1),
       l2 (a.data.map Px3.c2) (b.data.map Px3.c2)⟩ := by
  rw [euclidPx3_iff _ _ _ h]
  simp only [l2, List.zipWith_map, subReal]

theorem px3_data_inj (l m : List (Px3 C)) (h0 : l.map Px3.c0 = m.map Px3.c0)
    (h1 : l.map Px3.c1 = m.map Px3.c1) (h2 : l.map Px3.c2 = m.map Px3.c2) : l = m := by
  induction l generalizing m with
  | nil => cases m with
    | nil => rfl
    | cons q m => simp at h0
  | cons p l ih => cases m with
    | nil => simp at h0
    | cons q m =>
      simp only [List.map_cons, List.cons.injEq] at h0 h1 h2
      obtain ⟨a, b, c⟩ := p
      obtain ⟨a', b', c'⟩ := q
      simp only at h0 h1 h2
      rw [ih m h0.2 h1.2 h2.2, h0.1, h1.1, h2.1]

theorem l1_nonneg (l m : List ℝ) : 0 ≤ l1 l m := zipAbs_nonneg l m

theorem manhattanVal_ok (val : C → ℝ) (a b : Image C) (wa : a.WF) (wb : b.WF) (h : a.size = b.size)
    (h0 : 0 < a.size.prod) :
    manhattanVal val a b = .ok (l1 (a.data.map val) (b.data.map val)) := by
  have : (fun x y : C => absDiff (val x) (val y)) = fun x y => |val x - val y| := by
    funext x y; exact absDiff_eq _ _
  rw [manhattanVal, if_neg (by simpa using h), this, pixelwiseTransform2_ok _ wa wb h h0, Res.ok_bind,
    foldl_add_eq, zero_add, l1, List.zipWith_map]

theorem getPlane_map (zero : C) (im : Image (Px3 C)) (wf : im.WF) (h0 : 0 < im.size.prod) :
    getPlane zero im 0 = .ok ⟨im.size, im.data.map Px3.c0⟩ ∧
    getPlane zero im 1 = .ok ⟨im.size, im.data.map Px3.c1⟩ ∧
    getPlane zero im 2 = .ok ⟨im.size, im.data.map Px3.c2⟩ := by
  have hr : (List.range im.count).Perm (List.range im.data.length) := by rw [wf.count]
  exact ⟨getPlaneOrd_ok zero im wf h0 0 Px3.c0 (fun _ => rfl) _ hr,
    getPlaneOrd_ok zero im wf h0 1 Px3.c1 (fun _ => rfl) _ hr,
    getPlaneOrd_ok zero im wf h0 2 Px3.c2 (fun _ => rfl) _ hr⟩

theorem manhattanPx3_ok (zero : C) (val : C → ℝ) (a b : Image (Px3 C)) (wa : a.WF) (wb : b.WF)
    (h : a.size = b.size) (h0 : 0 < a.size.prod) :
    manhattanPx3 zero val a b = .ok
      [l1 (a.data.map fun p => val p.c0) (b.data.map fun p => val p.c0),
       l1 (a.data.map fun p => val p.c1) (b.data.map fun p => val p.c1),
       l1 (a.data.map fun p => val p.c2) (b.data.map fun p => val p.c2)] := by
  obtain ⟨a0, a1, a2⟩ := getPlane_map zero a wa h0
  obtain ⟨b0, b1, b2⟩ := getPlane_map zero b wb (h ▸ h0)
  have m : ∀ ch : Px3 C → C, manhattanVal val ⟨a.size, a.data.map ch⟩ ⟨b.size, b.data.map ch⟩ =
      .ok (l1 (a.data.map fun p => val (ch p)) (b.data.map fun p => val (ch p))) := by
    intro ch
    rw [manhattanVal_ok val _ _ (wa.map ch) (wb.map ch) h h0, List.map_map, List.map_map]
    rfl
  rw [manhattanPx3, if_neg (by simpa using h), Arith.applyEachSingle2, forUp,
    show List.range 3 = [0, 1, 2] from rfl]
  simp only [loop, a0, a1, a2, b0, b1, b2, Res.ok_bind, m]
  rfl

theorem map_zipWith_sum_lists (n : Nat) (ls : List (List ℝ)) (hl : ∀ l ∈ ls, l.length = n)
    (acc : List ℝ) (ha : acc.length = n) :
    (ls.foldl (List.zipWith (· + ·)) acc).length = n ∧ ∀ k (_ : k < n),
      (ls.foldl (List.zipWith (· + ·)) acc)[k]?.getD 0 =
        acc[k]?.getD 0 + (ls.map fun l => l[k]?.getD 0).sum := by
  induction ls generalizing acc with
  | nil => exact ⟨ha, fun k hk => by simp⟩
  | cons l ls ih =>
    have hl0 : l.length = n := hl l (by simp)
    obtain ⟨h1, h2⟩ := ih (fun l' h' => hl l' (by simp [h'])) (List.zipWith (· + ·) acc l) (by simp [ha, hl0])
    refine ⟨h1, fun k hk => ?_⟩
    rw [List.foldl_cons, h2 k hk, List.map_cons, List.sum_cons]
    have e1 : acc[k]? = some acc[k] := List.getElem?_eq_getElem (by omega)
    have e2 : l[k]? = some l[k] := List.getElem?_eq_getElem (by omega)
    have : (List.zipWith (· + ·) acc l)[k]? = some (acc[k] + l[k]) := by
      rw [List.getElem?_zipWith, e1, e2]
    rw [this, e1, e2]
    simp only [Option.getD_some]
    ring

/-- Channel-wise addition of lists is associative and commutative. -/
theorem zipAdd_assoc (a b c : List ℝ) : List.zipWith (· + ·) (List.zipWith (· + ·) a b) c =
    List.zipWith (· + ·) a (List.zipWith (· + ·) b c) := by
  induction a generalizing b c with
  | nil => simp
  | cons x a ih => cases b with
    | nil => simp
    | cons y b => cases c with
      | nil => simp
      | cons z c => simp [ih, add_assoc]

theorem zipAdd_comm (a b : List ℝ) : List.zipWith (· + ·) a b = List.zipWith (· + ·) b a := by
  rw [List.zipWith_comm]
  congr 1
  funext x y
  ring

end TinyDIP.Distance
