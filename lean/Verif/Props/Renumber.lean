import Verif.Lemmas.Renumber
import Verif.Lemmas.Samples

/-!
# Property C197: pictures with leading zeros in their names
-/

namespace TinyDIP.Props

open TinyDIP TinyDIP.Cli Image Renumber

/-- `addLeadingZeros(input, output)`: when the pictures `input1.bmp` … `input96.bmp` can be read and `output` has
at most 94 characters, `output00001.bmp` … `output00096.bmp` are the same pictures afterwards, and no other file
changed. Full statement: for every path; see `C197_long_violation`. -/
theorem C197_numbered_partial (fs : Files) (input output : List Char) (im : Nat → Image RGB) (w h : Nat → Nat)
    (f : Nat → Nat → Nat → RGB) (s : ∀ i, 1 ≤ i → i ≤ 96 → (im i).Shows (w i) (h i) (f i))
    (hw : ∀ i, 1 ≤ i → i ≤ 96 → 0 < w i) (hh : ∀ i, 1 ≤ i → i ≤ 96 → 0 < h i)
    (hsz : ∀ i, 1 ≤ i → i ≤ 96 → bmpRow24 (w i) * h i < 2 ^ 31)
    (hin : ∀ i, 1 ≤ i → i ≤ 96 → bmpRead fs (input ++ Nat.toDigits 10 i ++ ".bmp".toList) true = .ok (im i))
    (hlen : output.length ≤ 94)
    (hwr : ∀ i, 1 ≤ i → i ≤ 96 → fs.writable (output ++ fiveDigits i ++ ".bmp".toList) = true)
    (hdis : ∀ i j, 1 ≤ i → i < j → j ≤ 96 →
      output ++ fiveDigits i ++ ".bmp".toList ≠ input ++ Nat.toDigits 10 j ++ ".bmp".toList) :
    ∃ fs', addLeadingZeros fs input output = .ok fs' ∧
      (∀ i, 1 ≤ i → i ≤ 96 → bmpRead fs' (output ++ fiveDigits i) false = .ok (im i)) ∧
      ∀ p, (∀ i, 1 ≤ i → i ≤ 96 → p ≠ output ++ fiveDigits i ++ ".bmp".toList) →
        fs'.content p = fs.content p := by
  have hnm : ∀ i, i ≤ 96 → outName output i = output ++ fiveDigits i := by
    intro i hi
    unfold outName
    rw [pad5_eq hi, List.take_of_length_le]
    have : (fiveDigits i).length = 5 := rfl
    rw [List.length_append, this]; omega
  obtain ⟨fs', e1, -, e3, e4⟩ := step_ok fs input (outName output) 96 im w h f s hw hh hsz hin
    (fun i h1 h2 => by rw [hnm i h2]; exact hwr i h1 h2)
    (fun i j h1 h2 h3 => by rw [hnm i (by omega)]; exact hdis i j h1 h2 h3) 96 (le_refl _)
  refine ⟨fs', e1, fun i h1 h2 => ?_, fun p hp => e4 p fun i h1 h2 => by rw [hnm i h2]; exact hp i h1 h2⟩
  rw [← hnm i h2]
  refine e3 i h1 h2 fun j h3 h4 he => ?_
  rw [hnm i h2, hnm j h4] at he
  have := fiveDigits_inj h4 h2 (List.append_cancel_left (List.append_cancel_right he))
  omega

/-- Files with a picture each, for this theorem and the next. -/
theorem numbered_files : ∃ fs : Files, (∀ n, fs.writable n = true) ∧
    ∀ input i, bmpRead fs (input ++ Nat.toDigits 10 i ++ ".bmp".toList) true =
      .ok (picture 3 2 fun x y => (⟨BitVec.ofNat 8 x, BitVec.ofNat 8 y, 7⟩ : RGB)) := by
  obtain ⟨fs', h1, -, h3, -⟩ := C34_bmp_round_trip_partial ⟨fun _ => none, fun _ => true⟩ [] _ 3 2 _
    (picture_shows 3 2 fun x y => (⟨BitVec.ofNat 8 x, BitVec.ofNat 8 y, 7⟩ : RGB)) (by decide) (by decide) (by decide) rfl
  refine ⟨⟨fun _ => fs'.content ([] ++ ".bmp".toList), fun _ => true⟩, fun _ => rfl, fun input i => ?_⟩
  exact h3

example (input : List Char) (hlen : input.length ≤ 94) :
    ∃ fs fs', addLeadingZeros fs input input = .ok fs' := by
  obtain ⟨fs, h1, h2⟩ := numbered_files
  have hsmall : ∀ j : Fin 97, (Nat.toDigits 10 j).length ≤ 2 := by decide
  obtain ⟨fs', h3, -⟩ := C197_numbered_partial fs input input
    (fun _ => picture 3 2 fun x y => (⟨BitVec.ofNat 8 x, BitVec.ofNat 8 y, 7⟩ : RGB)) (fun _ => 3) (fun _ => 2) _
    (fun _ _ _ => picture_shows 3 2 _) (fun _ _ _ => by decide) (fun _ _ _ => by decide) (fun _ _ _ => by decide)
    (fun i _ _ => h2 input i) hlen (fun _ _ _ => h1 _) (fun i j _ _ hj e => by
      have h4 := congrArg List.length e
      have h5 := hsmall ⟨j, by omega⟩
      have h6 : (fiveDigits i).length = 5 := rfl
      simp only [List.length_append, h6] at h4 h5
      omega)
  exact ⟨fs, fs', h3⟩

/-- The full property fails: with an output path of 99 characters or more the numbers are cut off, all pictures
are written to one file, and only the last one remains. -/
theorem C197_long_violation (fs : Files) (input output : List Char) (im : Nat → Image RGB) (w h : Nat → Nat)
    (f : Nat → Nat → Nat → RGB) (s : ∀ i, 1 ≤ i → i ≤ 96 → (im i).Shows (w i) (h i) (f i))
    (hw : ∀ i, 1 ≤ i → i ≤ 96 → 0 < w i) (hh : ∀ i, 1 ≤ i → i ≤ 96 → 0 < h i)
    (hsz : ∀ i, 1 ≤ i → i ≤ 96 → bmpRow24 (w i) * h i < 2 ^ 31)
    (hin : ∀ i, 1 ≤ i → i ≤ 96 → bmpRead fs (input ++ Nat.toDigits 10 i ++ ".bmp".toList) true = .ok (im i))
    (hlen : 99 ≤ output.length)
    (hwr : fs.writable (output.take 99 ++ ".bmp".toList) = true)
    (hdis : ∀ j, 1 ≤ j → j ≤ 96 →
      output.take 99 ++ ".bmp".toList ≠ input ++ Nat.toDigits 10 j ++ ".bmp".toList) :
    ∃ fs', addLeadingZeros fs input output = .ok fs' ∧
      bmpRead fs' (output.take 99) false = .ok (im 96) ∧
      ∀ p, p ≠ output.take 99 ++ ".bmp".toList → fs'.content p = fs.content p := by
  have hnm : ∀ i, outName output i = output.take 99 := fun i => by
    unfold outName
    rw [List.take_append_of_le_length hlen]
  obtain ⟨fs', e1, -, e3, e4⟩ := step_ok fs input (outName output) 96 im w h f s hw hh hsz hin
    (fun i h1 h2 => by rw [hnm i]; exact hwr)
    (fun i j h1 h2 h3 => by rw [hnm i]; exact hdis j (by omega) h3) 96 (le_refl _)
  refine ⟨fs', e1, ?_, fun p hp => e4 p fun i h1 h2 => by rw [hnm i]; exact hp⟩
  rw [← hnm 96]
  exact e3 96 (by omega) (le_refl _) fun j h3 h4 => by omega

example : ∃ fs fs', addLeadingZeros fs "a".toList (List.replicate 120 'o') = .ok fs' := by
  obtain ⟨fs, h1, h2⟩ := numbered_files
  have hsmall : ∀ j : Fin 97, (Nat.toDigits 10 j).length ≤ 2 := by decide
  obtain ⟨fs', h3, -⟩ := C197_long_violation fs "a".toList (List.replicate 120 'o')
    (fun _ => picture 3 2 fun x y => (⟨BitVec.ofNat 8 x, BitVec.ofNat 8 y, 7⟩ : RGB)) (fun _ => 3) (fun _ => 2) _
    (fun _ _ _ => picture_shows 3 2 _) (fun _ _ _ => by decide) (fun _ _ _ => by decide) (fun _ _ _ => by decide)
    (fun i _ _ => h2 _ i) (by decide) (h1 _) (fun j _ hj e => by
      have h4 := congrArg List.length e
      have h5 := hsmall ⟨j, by omega⟩
      simp only [List.length_append, List.length_take, List.length_replicate] at h4 h5
      have h6 : "a".toList.length = 1 := rfl
      omega)
  exact ⟨fs, fs', h3⟩

/-- A picture that is missing: the function ends with the exception `runtime_error`, and the pictures with greater
numbers are not written. -/
theorem C197_missing_picture (fs : Files) (input output : List Char) (im : Nat → Image RGB) (w h : Nat → Nat)
    (f : Nat → Nat → Nat → RGB) (m : Nat) (hm : 1 ≤ m) (hm' : m ≤ 96)
    (s : ∀ i, 1 ≤ i → i < m → (im i).Shows (w i) (h i) (f i))
    (hw : ∀ i, 1 ≤ i → i < m → 0 < w i) (hh : ∀ i, 1 ≤ i → i < m → 0 < h i)
    (hsz : ∀ i, 1 ≤ i → i < m → bmpRow24 (w i) * h i < 2 ^ 31)
    (hin : ∀ i, 1 ≤ i → i < m → bmpRead fs (input ++ Nat.toDigits 10 i ++ ".bmp".toList) true = .ok (im i))
    (hlen : output.length ≤ 94)
    (hwr : ∀ i, 1 ≤ i → i < m → fs.writable (output ++ fiveDigits i ++ ".bmp".toList) = true)
    (hdis : ∀ i j, 1 ≤ i → i < j → j ≤ m →
      output ++ fiveDigits i ++ ".bmp".toList ≠ input ++ Nat.toDigits 10 j ++ ".bmp".toList)
    (hgone : fs.content (input ++ Nat.toDigits 10 m ++ ".bmp".toList) = none) :
    addLeadingZeros fs input output = .throw .runtime := by
  have hext : ".bmp".toList = bmpExt := by decide
  rw [hext] at hgone
  have hnm : ∀ i, i ≤ 96 → outName output i = output ++ fiveDigits i := by
    intro i hi
    unfold outName
    rw [pad5_eq hi, List.take_of_length_le]
    have : (fiveDigits i).length = 5 := rfl
    rw [List.length_append, this]; omega
  obtain ⟨fs', e1, -, -, e4⟩ := step_ok fs input (outName output) (m - 1) im w h f (fun i a b => s i a (by omega))
    (fun i a b => hw i a (by omega)) (fun i a b => hh i a (by omega)) (fun i a b => hsz i a (by omega))
    (fun i a b => hin i a (by omega))
    (fun i h1 h2 => by rw [hnm i (by omega)]; exact hwr i h1 (by omega))
    (fun i j h1 h2 h3 => by rw [hnm i (by omega)]; exact hdis i j h1 h2 (by omega)) (m - 1) (le_refl _)
  have hsplit : List.range' 1 96 = List.range' 1 (m - 1) ++ m :: List.range' (m + 1) (96 - m) := by
    rw [show m :: List.range' (m + 1) (96 - m) = List.range' m (96 - m + 1) from (List.range'_succ ..).symm]
    have := List.range'_append (s := 1) (m := m - 1) (n := 96 - m + 1) (step := 1)
    rw [show 1 + 1 * (m - 1) = m by omega, show m - 1 + (96 - m + 1) = 96 by omega] at this
    exact this.symm
  have hr : bmpRead fs' (input ++ toStr m ++ bmpExt) true = .throw .runtime := by
    unfold bmpRead
    rw [pathOf_true, e4 _ fun i h1 h2 => by rw [hnm i (by omega)]; exact (hdis i m h1 (by omega) (le_refl _)).symm]
    show (match fs.content (input ++ Nat.toDigits 10 m ++ bmpExt) with
      | none => _
      | some file => _) = _
    rw [hgone]
  unfold addLeadingZeros
  rw [hsplit, loop_append, e1, Res.ok_bind]
  simp only [loop, hr]
  rfl

example (output : List Char) (hlen : output.length ≤ 94) := C197_missing_picture ⟨fun _ => none, fun _ => true⟩
  "in".toList output (fun _ => picture 1 1 fun _ _ => (⟨1, 2, 3⟩ : RGB)) (fun _ => 1) (fun _ => 1)
  (fun _ _ _ => ⟨1, 2, 3⟩) 1 (by decide) (by decide) (fun i a b => by omega) (fun i a b => by omega)
  (fun i a b => by omega) (fun i a b => by omega) (fun i a b => by omega) hlen (fun i a b => by omega)
  (fun i j a b c => by omega) rfl

end TinyDIP.Props
