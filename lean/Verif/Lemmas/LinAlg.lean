import Verif.Spec.LinAlg
import Verif.Lemmas.Geometry
import Mathlib.Algebra.BigOperators.Fin

namespace TinyDIP

variable {α : Type}

namespace Mat

/-- Function-level view of a matrix object. -/
structure Reads (A : Mat α) (m n : Nat) (f : Nat → Nat → α) : Prop where
  rows : A.rows = m
  cols : A.cols = n
  len : A.data.length = m * n
  fits : m * n < 2 ^ 64
  px : ∀ r c, r < m → c < n → A.data[r * n + c]? = some (f r c)

theorem idx_lt {m n r c : Nat} (hr : r < m) (hc : c < n) : r * n + c < m * n := by
  calc r * n + c < r * n + n := by omega
    _ = (r + 1) * n := by ring
    _ ≤ m * n := Nat.mul_le_mul_right _ hr

theorem idx_inj {n r c r' c' : Nat} (hc : c < n) (hc' : c' < n) (h : r * n + c = r' * n + c') :
    r = r' ∧ c = c' := by
  have hn : 0 < n := by omega
  have h1 : (r * n + c) / n = r := by
    rw [Nat.add_comm, Nat.add_mul_div_right _ _ hn, Nat.div_eq_of_lt hc, Nat.zero_add]
  have h2 : (r' * n + c') / n = r' := by
    rw [Nat.add_comm, Nat.add_mul_div_right _ _ hn, Nat.div_eq_of_lt hc', Nat.zero_add]
  have : r = r' := by rw [← h1, ← h2, h]
  subst this
  exact ⟨rfl, by omega⟩

theorem idx_w {m n r c : Nat} (hf : m * n < 2 ^ 64) (hr : r < m) (hc : c < n) :
    wadd (wmul r n) c = r * n + c := by
  have h := idx_lt hr hc
  rw [wmul_of_lt (by omega), wadd_of_lt (by omega)]

theorem Reads.get {A : Mat α} {m n : Nat} {f : Nat → Nat → α} (h : A.Reads m n f) {r c : Nat}
    (hr : r < m) (hc : c < n) : A.get r c = .ok (f r c) := by
  unfold Mat.get
  rw [h.cols, idx_w h.fits hr hc]
  simp [vget, h.px r c hr hc]

theorem Reads.set {A : Mat α} {m n : Nat} {f : Nat → Nat → α} (h : A.Reads m n f) {r c : Nat}
    (hr : r < m) (hc : c < n) (v : α) :
    ∃ A', A.set r c v = .ok A' ∧ A'.Reads m n (fun i j => if i = r ∧ j = c then v else f i j) := by
  unfold Mat.set
  rw [h.cols, idx_w h.fits hr hc]
  have hl : r * n + c < A.data.length := by rw [h.len]; exact idx_lt hr hc
  simp only [vset, hl, if_true, Res.ok_bind]
  refine ⟨_, rfl, ⟨h.rows, h.cols ▸ rfl, by simpa using h.len, h.fits, ?_⟩⟩
  intro i j hi hj
  by_cases e : i = r ∧ j = c
  · obtain ⟨rfl, rfl⟩ := e
    simp [hl]
  · rw [if_neg e, List.getElem?_set_ne, h.px i j hi hj]
    intro h'
    have := idx_inj hc hj h'
    exact e ⟨this.1.symm, this.2.symm⟩

theorem Reads.congr {A : Mat α} {m n : Nat} {f g : Nat → Nat → α} (h : A.Reads m n f)
    (e : ∀ r c, r < m → c < n → f r c = g r c) : A.Reads m n g :=
  ⟨h.rows, h.cols, h.len, h.fits, fun r c hr hc => by rw [h.px r c hr hc, e r c hr hc]⟩

theorem mk'_reads (z : α) {m n : Nat} (hf : m * n < 2 ^ 64) : (mk' z m n).Reads m n (fun _ _ => z) := by
  refine ⟨rfl, rfl, ?_, hf, ?_⟩
  · simp [mk', wmul_of_lt hf]
  · intro r c hr hc
    simp [mk', wmul_of_lt hf, idx_lt hr hc]

/-- Extension of a matrix indexed by `Fin` to all naturals. -/
def ext (z : α) {m n : Nat} (M : Matrix (Fin m) (Fin n) α) : Nat → Nat → α :=
  fun r c => if h : r < m ∧ c < n then M ⟨r, h.1⟩ ⟨c, h.2⟩ else z

theorem Is.reads {A : Mat α} {m n : Nat} {M : Matrix (Fin m) (Fin n) α} (z : α) (h : A.Is M) :
    A.Reads m n (ext z M) := by
  refine ⟨h.rows, h.cols, h.len, h.fits, ?_⟩
  intro r c hr hc
  have e := h.entry ⟨r, hr⟩ ⟨c, hc⟩
  unfold Mat.get at e
  rw [h.cols, idx_w h.fits hr hc] at e
  simp only [vget] at e
  simp only [ext, hr, hc, and_self, dite_true]
  cases hd : A.data[r * n + c]? with
  | none => rw [hd] at e; cases e
  | some v => rw [hd] at e; simpa using e

theorem Reads.is {A : Mat α} {m n : Nat} {f : Nat → Nat → α} (h : A.Reads m n f) :
    A.Is (Matrix.of fun (i : Fin m) (j : Fin n) => f i j) :=
  ⟨h.rows, h.cols, h.len, h.fits, fun i j => h.get i.2 j.2⟩

theorem Is.congr {A : Mat α} {m n : Nat} {M N : Matrix (Fin m) (Fin n) α} (h : A.Is M) (e : M = N) :
    A.Is N := e ▸ h

/-- Two objects for the same matrix are equal. -/
theorem Is.unique {A B : Mat α} {m n : Nat} {M : Matrix (Fin m) (Fin n) α} (hA : A.Is M)
    (hB : B.Is M) : A = B := by
  obtain ⟨ar, ac, ad⟩ := A
  obtain ⟨br, bc, bd⟩ := B
  have h1 := hA.rows; have h2 := hA.cols; have h3 := hB.rows; have h4 := hB.cols
  have h5 := hA.len; have h6 := hB.len
  simp only at h1 h2 h3 h4 h5 h6
  subst ar; subst ac; subst br; subst bc
  congr
  apply List.ext_getElem?
  intro k
  by_cases hk : k < m * n
  · have hn : 0 < n := by
      rcases Nat.eq_zero_or_pos n with h | h
      · subst h; simp at hk
      · exact h
    have hr : k / n < m := by rw [Nat.div_lt_iff_lt_mul hn]; exact hk
    have hc : k % n < n := Nat.mod_lt _ hn
    have e : k / n * n + k % n = k := by rw [Nat.mul_comm]; exact Nat.div_add_mod k n
    have z : α := M ⟨k / n, hr⟩ ⟨k % n, hc⟩
    have a := (hA.reads z).px _ _ hr hc
    have b := (hB.reads z).px _ _ hr hc
    rw [e] at a b
    exact a.trans b.symm
  · rw [List.getElem?_eq_none (by omega), List.getElem?_eq_none (by omega)]

/-- A double loop writing `g r c` to entry `(t r c)` in any nesting. -/
theorem loop_write {β : Type} (t : β → Nat × Nat) (g : Nat → Nat → α) {m n : Nat}
    (body : Mat α → β → Res (Mat α)) (l : List β)
    (hstep : ∀ b ∈ l, ∀ A f, A.Reads m n f → ∃ A', body A b = .ok A' ∧
      A'.Reads m n (fun i j => if i = (t b).1 ∧ j = (t b).2 then g i j else f i j))
    (hcov : ∀ r c, r < m → c < n → ∃ b ∈ l, t b = (r, c))
    (A : Mat α) (f : Nat → Nat → α) (h : A.Reads m n f) :
    ∃ A', loop body l A = .ok A' ∧ A'.Reads m n g := by
  have key : ∀ (l : List β), (∀ b ∈ l, ∀ A f, A.Reads m n f → ∃ A', body A b = .ok A' ∧
      A'.Reads m n (fun i j => if i = (t b).1 ∧ j = (t b).2 then g i j else f i j)) →
      ∀ (A : Mat α) (f : Nat → Nat → α), A.Reads m n f → ∃ A' f', loop body l A = .ok A' ∧
        A'.Reads m n f' ∧ ∀ i j, (f i j = g i j ∨ ∃ b ∈ l, t b = (i, j)) → f' i j = g i j := by
    intro l
    induction l with
    | nil =>
      intro _ A f h
      exact ⟨A, f, rfl, h, fun i j hij => by simpa using hij⟩
    | cons b bs ih =>
      intro hs A f h
      obtain ⟨A1, e1, r1⟩ := hs b (by simp) A f h
      obtain ⟨A2, f2, e2, r2, h2⟩ := ih (fun b hb => hs b (by simp [hb])) A1 _ r1
      refine ⟨A2, f2, by simp [loop, e1, e2], r2, ?_⟩
      intro i j hij
      apply h2
      by_cases e : i = (t b).1 ∧ j = (t b).2
      · left; simp [e]
      · simp only [e, if_false]
        rcases hij with hij | ⟨b', hb', hb''⟩
        · exact Or.inl hij
        · rcases List.mem_cons.mp hb' with rfl | hb'
          · rw [hb''] at e; exact absurd ⟨rfl, rfl⟩ e
          · exact Or.inr ⟨b', hb', hb''⟩
  obtain ⟨A', f', e, r, hf⟩ := key l hstep A f h
  exact ⟨A', e, r.congr fun i j hi hj => hf i j (Or.inr (hcov i j hi hj))⟩

theorem forUp_fill (g : Nat → Nat → α) {m n : Nat} (body : Mat α → Nat → Nat → Res (Mat α))
    (hstep : ∀ r c, r < m → c < n → ∀ A f, A.Reads m n f → ∃ A', body A r c = .ok A' ∧
      A'.Reads m n (fun i j => if i = r ∧ j = c then g r c else f i j))
    (A : Mat α) (f : Nat → Nat → α) (h : A.Reads m n f) :
    ∃ A', forUp m (fun A r => forUp n (fun A c => body A r c) A) A = .ok A' ∧ A'.Reads m n g := by
  rw [← pixFor_iterXY]
  refine loop_write (fun p => p) g _ _ ?_ ?_ A f h
  · intro p hp A f h
    obtain ⟨hr, hc⟩ := mem_iterXY.mp hp
    obtain ⟨A', e, r⟩ := hstep p.1 p.2 hr hc A f h
    refine ⟨A', e, r.congr fun i j _ _ => ?_⟩
    by_cases e : i = p.1 ∧ j = p.2
    · simp [e]
    · simp [e]
  · intro r c hr hc
    exact ⟨(r, c), mem_iterXY.mpr ⟨hr, hc⟩, rfl⟩

theorem forUp_fill' (g : Nat → Nat → α) {m n : Nat} (body : Mat α → Nat → Nat → Res (Mat α))
    (hstep : ∀ r c, r < m → c < n → ∀ A f, A.Reads m n f → ∃ A', body A r c = .ok A' ∧
      A'.Reads m n (fun i j => if i = r ∧ j = c then g r c else f i j))
    (A : Mat α) (f : Nat → Nat → α) (h : A.Reads m n f) :
    ∃ A', forUp n (fun A c => forUp m (fun A r => body A r c) A) A = .ok A' ∧ A'.Reads m n g := by
  rw [← pixFor_iterYX (body := fun A r c => body A r c)]
  refine loop_write (fun p => p) g _ _ ?_ ?_ A f h
  · intro p hp A f h
    obtain ⟨hr, hc⟩ := mem_iterYX.mp hp
    obtain ⟨A', e, r⟩ := hstep p.1 p.2 hr hc A f h
    refine ⟨A', e, r.congr fun i j _ _ => ?_⟩
    by_cases e : i = p.1 ∧ j = p.2
    · simp [e]
    · simp [e]
  · intro r c hr hc
    exact ⟨(r, c), mem_iterYX.mpr ⟨hr, hc⟩, rfl⟩

theorem transpose_reads (z : α) {A : Mat α} {m n : Nat} {f : Nat → Nat → α} (h : A.Reads m n f) :
    ∃ T, A.transpose z = .ok T ∧ T.Reads n m (fun r c => f c r) := by
  unfold transpose
  rw [h.rows, h.cols]
  refine forUp_fill' (fun r c => f c r) (fun T c r => do let v ← A.get r c; T.set c r v) ?_ _ _
    (mk'_reads z (by rw [Nat.mul_comm]; exact h.fits))
  intro r c hr hc B g hB
  simp only [h.get hc hr, Res.ok_bind]
  exact hB.set hr hc _

theorem forUp_sum [AddCommMonoid α] (n : Nat) (g : Nat → α) (body : α → Nat → Res α)
    (hb : ∀ s k, k < n → body s k = .ok (s + g k)) :
    forUp n body 0 = .ok ((Finset.range n).sum g) := by
  obtain ⟨s, h1, h2⟩ := forUp_inv (n := n) (body := body)
    (fun k s => s = (Finset.range k).sum g)
    (fun k s hk hs => ⟨s + g k, hb s k hk, by rw [Finset.sum_range_succ, hs]⟩) 0 (by simp)
  rw [h1, h2]

theorem multiply_reads [CommRing α] {A B : Mat α} {m n p : Nat} {f g : Nat → Nat → α}
    (hA : A.Reads m n f) (hB : B.Reads n p g) (hf : m * p < 2 ^ 64) :
    ∃ C, multiply A B = .ok C ∧
      C.Reads m p (fun i j => (Finset.range n).sum fun k => f i k * g k j) := by
  unfold multiply
  rw [if_neg (by rw [hA.cols, hB.rows]; simp), hA.rows, hB.cols, hA.cols]
  refine forUp_fill _ (fun C i j => do
        let sum ← forUp n (fun sum k => do
          let a ← A.get i k
          let b ← B.get k j
          .ok (sum + a * b)) 0
        C.set i j sum) ?_ _ _ (mk'_reads 0 hf)
  intro r c hr hc C k hC
  rw [forUp_sum n (fun k => f r k * g k c)]
  · simp only [Res.ok_bind]
    exact hC.set hr hc _
  · intro s k hk
    simp [hA.get hr hk, hB.get hk hc]

end Mat
end TinyDIP

namespace TinyDIP.Mat

variable {α : Type}

theorem rowViolates_eq (differ : α → α → Bool) {A : Mat α} {n : Nat} {f : Nat → Nat → α}
    (h : A.Reads n n f) (r : Nat) (hr : r < n) (cs : List Nat) (hcs : ∀ c ∈ cs, c < n) :
    rowViolates differ A r cs = .ok (cs.any fun c => differ (f r c) (f c r)) := by
  induction cs with
  | nil => rfl
  | cons c cs ih =>
    have hc := hcs c (by simp)
    simp only [rowViolates, h.get hr hc, h.get hc hr, Res.ok_bind, List.any_cons]
    cases differ (f r c) (f c r) with
    | true => simp
    | false => simpa using ih (fun c hc => hcs c (by simp [hc]))

theorem symRows_eq (differ : α → α → Bool) {A : Mat α} {n : Nat} {f : Nat → Nat → α}
    (h : A.Reads n n f) (rs : List Nat) (hrs : ∀ r ∈ rs, r < n) :
    symRows differ A rs = .ok (!(rs.any fun r =>
      (List.range' (r + 1) (n - (r + 1))).any fun c => differ (f r c) (f c r))) := by
  induction rs with
  | nil => rfl
  | cons r rs ih =>
    have hr := hrs r (by simp)
    simp only [symRows, h.cols]
    rw [rowViolates_eq differ h r hr _ (by intro c hc; rw [List.mem_range'_1] at hc; omega)]
    simp only [Res.ok_bind, List.any_cons]
    cases (List.range' (r + 1) (n - (r + 1))).any fun c => differ (f r c) (f c r) with
    | true => simp
    | false => simpa using ih (fun r hr => hrs r (by simp [hr]))

/-- The answer of the row scan, for any list of rows that visits every row. -/
theorem symRows_iff (differ : α → α → Bool) {A : Mat α} {n : Nat} {f : Nat → Nat → α}
    (h : A.Reads n n f) (rs : List Nat) (hrs : ∀ r, r ∈ rs ↔ r < n) :
    ∃ b, symRows differ A rs = .ok b ∧
      (b = true ↔ ∀ r c, r < c → c < n → differ (f r c) (f c r) = false) := by
  refine ⟨_, symRows_eq differ h rs (fun r hr => (hrs r).mp hr), ?_⟩
  simp only [Bool.not_eq_true', List.any_eq_false, List.mem_range'_1, hrs, Bool.not_eq_true]
  constructor
  · intro h r c hrc hc
    exact h r (by omega) c (by omega)
  · intro h r hr c hc
    exact h r c (by omega) (by omega)

end TinyDIP.Mat
