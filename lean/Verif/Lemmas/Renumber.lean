import Verif.Model.Renumber
import Verif.Spec.Renumber
import Verif.Props.Io

/-!
# Numbered names (lemmas)
-/

namespace TinyDIP.Renumber

open TinyDIP TinyDIP.Cli Image Props

theorem pad5_eq {i : Nat} (h : i ≤ 96) : pad5 i = fiveDigits i := by
  have : ∀ i : Fin 97, pad5 i = fiveDigits i := by decide
  exact this ⟨i, by omega⟩

theorem fiveDigits_inj {i j : Nat} (hi : i ≤ 96) (hj : j ≤ 96) (h : fiveDigits i = fiveDigits j) : i = j := by
  have hd : ∀ a b : Fin 10, Nat.digitChar a = Nat.digitChar b → a = b := by decide
  simp only [fiveDigits, List.map_cons, List.map_nil, List.cons.injEq, and_true] at h
  obtain ⟨-, -, -, h1, h2⟩ := h
  have e1 := hd ⟨i / 10 % 10, by omega⟩ ⟨j / 10 % 10, by omega⟩ h1
  have e2 := hd ⟨i % 10, by omega⟩ ⟨j % 10, by omega⟩ h2
  simp only [Fin.mk.injEq] at e1 e2
  omega

theorem bmpRead_congr {fs fs' : Files} {name : List Char} {ext : Bool}
    (h : fs'.content (pathOf name bmpExt ext) = fs.content (pathOf name bmpExt ext)) :
    bmpRead fs' name ext = bmpRead fs name ext := by
  unfold bmpRead
  rw [h]

theorem bmpWrite_writable {fs fs' : Files} {name : List Char} {im : Image RGB} {c : Int}
    (h : bmpWrite fs name im = .ok (fs', c)) : fs'.writable = fs.writable := by
  unfold bmpWrite at h
  cases hb : bmpBytes im with
  | ok b =>
    rw [hb, Res.ok_bind, Res.ok.injEq] at h
    unfold Files.put at h
    split at h <;> cases h <;> rfl
  | throw e => rw [hb] at h; exact absurd h (by simp [Res.throw_bind])
  | ub => rw [hb] at h; exact absurd h (by simp [Res.ub_bind])

theorem step_ok (fs0 : Files) (input : List Char) (nm : Nat → List Char) (n : Nat) (im : Nat → Image RGB)
    (w h : Nat → Nat) (f : Nat → Nat → Nat → RGB) (s : ∀ i, 1 ≤ i → i ≤ n → (im i).Shows (w i) (h i) (f i))
    (hw : ∀ i, 1 ≤ i → i ≤ n → 0 < w i) (hh : ∀ i, 1 ≤ i → i ≤ n → 0 < h i)
    (hsz : ∀ i, 1 ≤ i → i ≤ n → bmpRow24 (w i) * h i < 2 ^ 31)
    (hin : ∀ i, 1 ≤ i → i ≤ n → bmpRead fs0 (input ++ toStr i ++ bmpExt) true = .ok (im i))
    (hwr : ∀ i, 1 ≤ i → i ≤ n → fs0.writable (nm i ++ bmpExt) = true)
    (hdis : ∀ i j, 1 ≤ i → i < j → j ≤ n → nm i ++ bmpExt ≠ input ++ toStr j ++ bmpExt) (k : Nat) (hk : k ≤ n) :
    ∃ fs', loop (fun fs i => do
        let im ← bmpRead fs (input ++ toStr i ++ bmpExt) true
        let r ← bmpWrite fs (nm i) im
        .ok r.1) (List.range' 1 k) fs0 = .ok fs' ∧ fs'.writable = fs0.writable ∧
      (∀ i, 1 ≤ i → i ≤ k → (∀ j, i < j → j ≤ k → nm j ++ bmpExt ≠ nm i ++ bmpExt) →
        bmpRead fs' (nm i) false = .ok (im i)) ∧
      ∀ p, (∀ i, 1 ≤ i → i ≤ k → p ≠ nm i ++ bmpExt) → fs'.content p = fs0.content p := by
  have hext : ".bmp".toList = bmpExt := by decide
  induction k with
  | zero => exact ⟨fs0, rfl, rfl, fun i h1 h2 => by omega, fun p _ => rfl⟩
  | succ k ih =>
    obtain ⟨fs1, e1, e2, e3, e4⟩ := ih (by omega)
    have hr : bmpRead fs1 (input ++ toStr (k + 1) ++ bmpExt) true = .ok (im (k + 1)) := by
      rw [bmpRead_congr (fs := fs0), hin (k + 1) (by omega) hk]
      rw [pathOf_true]
      exact e4 _ fun i h1 h2 => (hdis i (k + 1) h1 (by omega) hk).symm
    obtain ⟨fs2, w1, w2, -, w4⟩ := C34_bmp_round_trip_partial fs1 (nm (k + 1)) (im (k + 1)) _ _ _
      (s (k + 1) (by omega) hk) (hw _ (by omega) hk) (hh _ (by omega) hk) (hsz _ (by omega) hk)
      (by rw [e2, hext]; exact hwr _ (by omega) hk)
    rw [hext] at w4
    refine ⟨fs2, ?_, (bmpWrite_writable w1).trans e2, fun i h1 h2 h3 => ?_, fun p hp => ?_⟩
    · rw [List.range'_concat, loop_append, e1, Res.ok_bind]
      simp only [loop, Nat.mul_one, Nat.one_mul, Nat.add_comm 1 k, hr, Res.ok_bind, w1]
    · by_cases hik : i = k + 1
      · rw [hik]; exact w2
      · rw [bmpRead_congr (fs := fs1), e3 i h1 (by omega) fun j h4 h5 => h3 j h4 (by omega)]
        rw [pathOf_false]
        exact w4 _ (h3 (k + 1) (by omega) (by omega)).symm
    · rw [w4 p (hp (k + 1) (by omega) (by omega)), e4 p fun i h1 h2 => hp i h1 (by omega)]

end TinyDIP.Renumber
