import Verif.Model.VolumeVec
import Verif.Props.Volume

/-!
# Property C226: sequences of volumes

Full statement of C226: `plus` of vectors of volumes returns, at every position, the voxelwise sum of the volumes at that
position, and `divides` of two vectors the voxelwise quotient; vectors of different lengths are rejected.

The last part is false: the elements run to the end of the first vector, a longer second one loses its end, a shorter one
is read past its end.
-/

namespace TinyDIP.Props

open TinyDIP

variable {α : Type}

/-! ## C226 -/

theorem heads_holds {w h d : Nat} : ∀ (rest : List (List (Vol α))) (g : Nat → Nat → Nat → Nat → α),
    (∀ k, k < rest.length → ∃ c : Vol α, (rest[k]?.bind (·[0]?)) = some c ∧ c.Holds w h d (g k)) →
    ∃ hs, Vol.heads rest = .ok hs ∧
      List.Forall₂ (fun (v : Vol α) f => v.Holds w h d f) hs ((List.range rest.length).map g) := by
  intro rest
  induction rest with
  | nil => exact fun g _ => ⟨[], rfl, by simp⟩
  | cons l rest ih =>
    intro g hg
    obtain ⟨c, e, s⟩ := hg 0 (by simp)
    obtain ⟨hs, e2, s2⟩ := ih (fun k => g (k + 1)) (fun k hk => by simpa using hg (k + 1) (by simpa using hk))
    cases l with
    | nil => simp at e
    | cons v l =>
      simp only [List.getElem?_cons_zero, Option.bind_some, Option.some.injEq] at e
      subst e
      refine ⟨v :: hs, by rw [Vol.heads, e2, Res.ok_bind], ?_⟩
      rw [List.length_cons, List.range_succ_eq_map, List.map_cons, List.map_map]
      exact .cons s s2

/-- `plus` of vectors of volumes: position `i` of the result is the voxelwise sum of the volumes at position `i` of all
vectors, when they have one size. Missing: rejection of vectors of different lengths, see `C226_length_violation`. -/
theorem C226_plus_partial [AddCommMonoid α] : ∀ (first : List (Vol α)) (rest : List (List (Vol α))) (w h d : Nat → Nat)
    (f : Nat → Nat → Nat → Nat → Nat → α),
    (∀ k i, k < rest.length + 1 → i < first.length →
      ∃ c : Vol α, ((first :: rest)[k]?.bind (·[i]?)) = some c ∧ c.Holds (w i) (h i) (d i) (f k i)) →
    ∃ out, Vol.plusVec (· + ·) first rest = .ok out ∧ out.length = first.length ∧
      ∀ i, i < first.length → ∃ c : Vol α, out[i]? = some c ∧
        c.Holds (w i) (h i) (d i) (fun x y z => ((List.range (rest.length + 1)).map fun k => f k i x y z).sum) := by
  intro first
  induction first with
  | nil => exact fun rest w h d f _ => ⟨[], rfl, rfl, fun i hi => absurd hi (by simp)⟩
  | cons v vs ih =>
    intro rest w h d f hv
    obtain ⟨c, e, s⟩ := hv 0 0 (by omega) (by simp)
    simp only [List.getElem?_cons_zero, Option.bind_some, Option.some.injEq] at e
    subst e
    obtain ⟨hs, e1, s1⟩ := heads_holds (w := w 0) (h := h 0) (d := d 0) rest (fun k => f (k + 1) 0)
      (fun k hk => by simpa using hv (k + 1) 0 (by omega) (by simp))
    obtain ⟨r, e2, s2⟩ := C123_plus_partial (v :: hs) (w 0) (h 0) (d 0)
      (f 0 0 :: (List.range rest.length).map fun k => f (k + 1) 0) (by simp) (.cons s s1)
    obtain ⟨out, e3, l3, s3⟩ := ih (rest.map List.tail) (fun i => w (i + 1)) (fun i => h (i + 1)) (fun i => d (i + 1))
      (fun k i => f k (i + 1)) (fun k i hk hi => by
        obtain ⟨c, e, s⟩ := hv k (i + 1) (by simpa using hk) (by simpa using hi)
        refine ⟨c, ?_, s⟩
        rw [← e]
        cases k with
        | zero => simp
        | succ k =>
          simp only [List.getElem?_cons_succ, List.getElem?_map]
          cases rest[k]? with
          | none => rfl
          | some l => cases l <;> simp)
    refine ⟨r :: out, by rw [Vol.plusVec, e1, Res.ok_bind, e2, Res.ok_bind, e3, Res.ok_bind], by simp [l3], ?_⟩
    intro i hi
    cases i with
    | zero =>
      refine ⟨r, rfl, ?_⟩
      rw [List.range_succ_eq_map]
      simpa [Function.comp_def] using s2
    | succ i =>
      obtain ⟨c, e, s⟩ := s3 i (by simpa using hi)
      exact ⟨c, by simpa using e, by simpa using s⟩

/-- `divides` of two vectors: position `i` of the result is the voxelwise quotient. Missing: rejection of vectors of
different lengths, see `C226_length_violation`. -/
theorem C226_divides_partial (op : α → α → α) : ∀ (as bs : List (Vol α)) (w h d : Nat → Nat)
    (f g : Nat → Nat → Nat → Nat → α),
    (∀ i, i < as.length → ∃ a b : Vol α, as[i]? = some a ∧ bs[i]? = some b ∧ a.Holds (w i) (h i) (d i) (f i) ∧
      b.Holds (w i) (h i) (d i) (g i)) →
    ∃ out, Vol.dividesVec op as bs = .ok out ∧ out.length = as.length ∧
      ∀ i, i < as.length → ∃ c : Vol α, out[i]? = some c ∧
        c.Holds (w i) (h i) (d i) (fun x y z => op (f i x y z) (g i x y z)) := by
  intro as
  induction as with
  | nil => exact fun bs w h d f g _ => ⟨[], rfl, rfl, fun i hi => absurd hi (by simp)⟩
  | cons a as ih =>
    intro bs w h d f g hv
    obtain ⟨a', b, ea, eb, sa, sb⟩ := hv 0 (by simp)
    simp only [List.getElem?_cons_zero, Option.some.injEq] at ea
    subst ea
    cases bs with
    | nil => simp at eb
    | cons b' bs =>
      simp only [List.getElem?_cons_zero, Option.some.injEq] at eb
      subst eb
      obtain ⟨r, e2, s2⟩ := Vol.voxelwise2_holds sa sb op
      obtain ⟨out, e3, l3, s3⟩ := ih bs (fun i => w (i + 1)) (fun i => h (i + 1)) (fun i => d (i + 1))
        (fun i => f (i + 1)) (fun i => g (i + 1)) (fun i hi => by simpa using hv (i + 1) (by simpa using hi))
      refine ⟨r :: out, ?_, by simp [l3], ?_⟩
      · rw [Vol.dividesVec, Vol.combine, e2, Res.ok_bind, e3, Res.ok_bind]
      · intro i hi
        cases i with
        | zero => exact ⟨r, rfl, s2⟩
        | succ i => simpa using s3 i (by simpa using hi)

/-- Violation: whatever the operation and the volumes, a second vector that is shorter is read past its end if the volumes
that have a partner can be combined. -/
theorem C226_length_violation (op : α → α → α) : ∀ (as bs : List (Vol α)), bs.length < as.length →
    (∀ (i : Nat) a b, as[i]? = some a → bs[i]? = some b → ∃ r, Vol.combine op a b = .ok r) → Vol.dividesVec op as bs = .ub := by
  intro as
  induction as with
  | nil => intro bs h; simp at h
  | cons a as ih =>
    intro bs h hc
    cases bs with
    | nil => rfl
    | cons b bs =>
      obtain ⟨r, e⟩ := hc 0 a b rfl rfl
      rw [Vol.dividesVec, e, Res.ok_bind, ih bs (by simpa using h) (fun i a b ha hb => hc (i + 1) a b ha hb)]
      rfl

/-- The same for `plus` of two vectors; and a longer second vector loses its end. -/
theorem C226_plus_length_violation (op : α → α → α) : ∀ (as bs : List (Vol α)), bs.length < as.length →
    (∀ (i : Nat) a b, as[i]? = some a → bs[i]? = some b → ∃ r, Vol.plus op [a, b] = .ok r) → Vol.plusVec op as [bs] = .ub := by
  intro as
  induction as with
  | nil => intro bs h; simp at h
  | cons a as ih =>
    intro bs h hc
    cases bs with
    | nil => rfl
    | cons b bs =>
      obtain ⟨r, e⟩ := hc 0 a b rfl rfl
      rw [Vol.plusVec]
      show (do let r ← Vol.plus op [a, b]; let rs ← Vol.plusVec op as [bs]; Res.ok (r :: rs)) = _
      rw [e, Res.ok_bind, ih bs (by simpa using h) (fun i a b ha hb => hc (i + 1) a b ha hb)]
      rfl

example : Vol.plusVec (· + ·) [(⟨1, 1, 2, [1, 2]⟩ : Vol Nat), ⟨2, 1, 1, [3, 4]⟩]
    [[⟨1, 1, 2, [5, 6]⟩, ⟨2, 1, 1, [7, 8]⟩], [⟨1, 1, 2, [10, 20]⟩, ⟨2, 1, 1, [30, 40]⟩, ⟨1, 1, 1, [9]⟩]] =
    .ok [⟨1, 1, 2, [16, 28]⟩, ⟨2, 1, 1, [40, 52]⟩] := by decide

example : Vol.dividesVec (· / ·) [(⟨1, 1, 2, [10, 20]⟩ : Vol Nat)] [⟨1, 1, 2, [5, 3]⟩, ⟨2, 1, 1, [7, 8]⟩] =
    .ok [⟨1, 1, 2, [2, 6]⟩] := by decide

example : Vol.dividesVec (· / ·) [(⟨1, 1, 2, [10, 20]⟩ : Vol Nat), ⟨1, 1, 1, [4]⟩] [⟨1, 1, 2, [5, 3]⟩] = .ub := by decide

example : Vol.plusVec (· + ·) [(⟨1, 1, 1, [1]⟩ : Vol Nat), ⟨1, 1, 1, [2]⟩] [[⟨1, 1, 1, [3]⟩]] = .ub := by decide

end TinyDIP.Props
