import Verif.Lemmas.Samples
import Verif.Props.CliScalar

/-!
# Property C116: the commands add and subtract
-/

namespace TinyDIP.Props

open TinyDIP.Cli

variable {F : Type}

/-- The image type with pixel type `n`. -/
abbrev numImage (n : Num) (im : Image ℚ) : Val Pay := .atom (.image (.num n)) (.image im)

theorem binary_step (io : FileIO Pay F) (core : Val Pay → Val Pay → Res (Val Pay)) (w : World Pay F)
    (args : List Str) (s t : Str) (o : Str) (more : List Str)
    (ha : argsFilter args = ('$' :: s) :: ('$' :: t) :: o :: more) (a b : Val Pay)
    (hs : w.ws.retrieveAny s = some a) (ht : w.ws.retrieveAny t = some b)
    (hm : isMasterData a.ty = true) (hf : family a.ty b.ty = true) :
    binaryCmd io core w args =
      match core a b with
      | .ub => .ub
      | .throw _ => .ok ⟨w, .returned, none⟩
      | .ok r =>
        if isMasterData r.ty then .ok ⟨(saveArg io w o r).1, .returned, none⟩
        else .ok ⟨w, .returned, none⟩ := by
  unfold binaryCmd
  rw [ha]
  dsimp only
  rw [loadVar io isMasterData w s a hs hm]
  dsimp only
  rw [loadVar io (family a.ty) w t b ht hf]
  dsimp only [quiet]
  cases core a b <;> rfl

/-- Whatever the operands, the commands change at most the variable, or the file, named by the third
argument. -/
theorem C116_frame (io : FileIO Pay F) (core : Val Pay → Val Pay → Res (Val Pay)) (w : World Pay F)
    (args : List Str) (out : Out Pay F) (h : binaryCmd io core w args = .ok out) :
    out.world = w ∨ ∃ o, (plainWords args)[2]? = some o ∧
      ((∃ d, o = '$' :: d ∧ OnlyVar w out.world d) ∨ (isVar o = false ∧ OnlyFile io w out.world o)) := by
  simp only [← argsFilter_eq] at *
  unfold binaryCmd at h
  simp only [quiet, raise] at h
  split at h
  · rename_i in1 in2 o more hf
    split at h
    · injection h with h; subst h; exact Or.inl rfl
    · injection h with h; subst h; exact Or.inl rfl
    · split at h
      · injection h with h; subst h; exact Or.inl rfl
      · injection h with h; subst h; exact Or.inl rfl
      · split at h
        · cases h
        · injection h with h; subst h; exact Or.inl rfl
        · split at h
          · injection h with h; subst h
            right
            exact ⟨o, by rw [hf]; rfl, saveArg_frame io w o _⟩
          · injection h with h; subst h; exact Or.inl rfl
  · injection h with h; subst h; exact Or.inl rfl

theorem fits_int {n : Num} {q : ℚ} (hq : Fits n q) (hd : n ≠ .double) : ∃ k : ℤ, q = k := by
  cases n with
  | bool =>
    rcases hq with rfl | rfl
    · exact ⟨0, by simp⟩
    · exact ⟨1, by simp⟩
  | uchar => obtain ⟨k, _, rfl⟩ := hq; exact ⟨k, by simp⟩
  | int => obtain ⟨k, _, _, rfl⟩ := hq; exact ⟨k, rfl⟩
  | sizeT => obtain ⟨k, _, rfl⟩ := hq; exact ⟨k, by simp⟩
  | double => exact absurd rfl hd

/-- Combining two images of one size, pixel operation `f`, when every pair of pixels has a result. -/
theorem combine_ok {α : Type} [Inhabited α] (f : α → α → Res α) (x y : Image α) (wx : x.WF) (wy : y.WF)
    (hsz : x.size = y.size) (hf : ∀ idx a b, x.at' idx = .ok a → y.at' idx = .ok b → ∃ c, f a b = .ok c) :
    ∃ r, combine f x y = .ok r ∧ r.WF ∧ r.size = x.size ∧
      ∀ idx a b, x.at' idx = .ok a → y.at' idx = .ok b → ∃ c, r.at' idx = .ok c ∧ f a b = .ok c := by
  have hlen : x.data.length = y.data.length := by rw [wx.len, wy.len, hsz]
  let g : α → α → α := fun a b => match f a b with
    | .ok c => c
    | _ => default
  have hg : ∀ a b c, f a b = .ok c → f a b = .ok (g a b) := by
    intro a b c h
    simp only [g, h]
  refine ⟨⟨x.size, List.zipWith g x.data y.data⟩, ?_, zip_wf wx wy hsz g, rfl, ?_⟩
  · rw [combine, Image.checkSizeSame, if_neg (by simp [hsz]), Res.ok_bind, zipRes_eq f g _ _ hlen,
      Res.ok_bind]
    intro p hp
    obtain ⟨idx, e1, e2⟩ := mem_zip_at wx wy hsz hp
    obtain ⟨c, hc⟩ := hf idx _ _ e1 e2
    exact hg _ _ c hc
  · intro idx a b ha hb
    obtain ⟨c, hc⟩ := hf idx a b ha hb
    exact ⟨g a b, zip_at wx wy hsz g ha hb, hg a b c hc⟩

theorem binary_images (io : FileIO Pay F) (ext : Val Pay → Val Pay → Res (Val Pay))
    (f : Num → ℚ → ℚ → Res ℚ) (g : ℚ → ℚ → ℚ) (hf : ∀ n a b, f n a b = n.wrap (g a b))
    (hg : ∀ a b : ℤ, ∃ c : ℤ, g a b = c) (w : World Pay F)
    (args : List Str) (s t d : Str) (more : List Str)
    (ha : argsFilter args = ('$' :: s) :: ('$' :: t) :: ('$' :: d) :: more) (n : Num) (hn : n ≠ .bool)
    (x y : Image ℚ) (hs : w.ws.retrieveAny s = some (numImage n x))
    (ht : w.ws.retrieveAny t = some (numImage n y)) (wx : x.WF) (wy : y.WF) (hsz : x.size = y.size)
    (hx : ∀ q ∈ x.data, Fits n q) (hy : ∀ q ∈ y.data, Fits n q)
    (hint : n = .int → ∀ idx a b, x.at' idx = .ok a → y.at' idx = .ok b → Fits .int (g a b)) :
    ∃ r, Stored w (binaryCmd io (binaryCore ext f) w args) d (numImage n r) ∧ r.WF ∧ r.size = x.size ∧
      ∀ idx a b, x.at' idx = .ok a → y.at' idx = .ok b →
        ∃ c, r.at' idx = .ok c ∧ f n a b = .ok c ∧ WrapsTo n (g a b) c := by
  have hex : ∀ idx a b, x.at' idx = .ok a → y.at' idx = .ok b →
      ∃ c, f n a b = .ok c ∧ WrapsTo n (g a b) c := by
    intro idx a b ea eb
    rw [hf]
    apply wrap_wrapsTo
    · intro hd
      obtain ⟨k, rfl⟩ := fits_int (hx a ((wx.mem_data_iff _).mpr ⟨idx, ea⟩)) hd
      obtain ⟨k', rfl⟩ := fits_int (hy b ((wy.mem_data_iff _).mpr ⟨idx, eb⟩)) hd
      exact hg k k'
    · intro hi
      exact hint hi idx a b ea eb
  obtain ⟨r, e, wr, sr, hr⟩ := combine_ok (f n) x y wx wy hsz fun idx a b ea eb =>
    (hex idx a b ea eb).imp fun c h => h.1
  refine ⟨r, ?_, wr, sr, fun idx a b ea eb => ?_⟩
  · apply stored_put
    have hb : isBoolData (numImage n x).ty = false := by cases n <;> first | rfl | exact absurd rfl hn
    have hb' : isBoolData (numImage n y).ty = false := by cases n <;> first | rfl | exact absurd rfl hn
    rw [binary_step io _ w args s t _ more ha _ _ hs ht rfl rfl]
    simp only [binaryCore, hb, hb', Bool.or_self, Bool.false_eq_true, if_false, if_true, e, Res.ok_bind]
    simp [saveArg, isVar, varName, isMasterData, isMasterImage, Val.ty]
  · obtain ⟨c, h1, h2⟩ := hr idx a b ea eb
    obtain ⟨c', h1', h2'⟩ := hex idx a b ea eb
    rw [h2] at h1'
    injection h1' with h1'
    subst h1'
    exact ⟨c, h1, h2, h2'⟩

/-- `add $s $t $d` of two images of numbers of one type and one size stores the image of the pixel sums,
in the arithmetic of the pixel type; policy words make no difference.
Full statement: for all pixel values; sums that are no `int` are undefined behaviour, see
`C116_overflow_violation`. -/
theorem C116_add_partial (io : FileIO Pay F) (ext : Val Pay → Val Pay → Res (Val Pay)) (w : World Pay F)
    (args : List Str) (s t d : Str) (more : List Str)
    (ha : plainWords args = ('$' :: s) :: ('$' :: t) :: ('$' :: d) :: more) (n : Num) (hn : n ≠ .bool)
    (x y : Image ℚ) (hs : w.ws.retrieveAny s = some (numImage n x))
    (ht : w.ws.retrieveAny t = some (numImage n y)) (wx : x.WF) (wy : y.WF) (hsz : x.size = y.size)
    (hx : ∀ q ∈ x.data, Fits n q) (hy : ∀ q ∈ y.data, Fits n q)
    (hint : n = .int → ∀ idx a b, x.at' idx = .ok a → y.at' idx = .ok b → Fits .int (a + b)) :
    ∃ r, Stored w (addCmd io ext w args) d (numImage n r) ∧ r.WF ∧ r.size = x.size ∧
      ∀ idx a b, x.at' idx = .ok a → y.at' idx = .ok b → ∃ c, r.at' idx = .ok c ∧ WrapsTo n (a + b) c := by
  simp only [← argsFilter_eq] at *
  obtain ⟨r, h1, h2, h3, h4⟩ := binary_images io ext Num.plus (· + ·) (fun _ _ _ => rfl)
    (fun a b => ⟨a + b, by push_cast; rfl⟩) w args s t d more ha n hn x y hs ht wx wy hsz hx hy hint
  exact ⟨r, h1, h2, h3, fun idx a b ea eb => (h4 idx a b ea eb).imp fun c h => ⟨h.1, h.2.2⟩⟩

/-- `subtract $s $t $d`: the image of the pixel differences. Missing: `int` differences that overflow, see
`C116_overflow_violation`. -/
theorem C116_subtract_partial (io : FileIO Pay F) (ext : Val Pay → Val Pay → Res (Val Pay))
    (w : World Pay F) (args : List Str) (s t d : Str) (more : List Str)
    (ha : plainWords args = ('$' :: s) :: ('$' :: t) :: ('$' :: d) :: more) (n : Num) (hn : n ≠ .bool)
    (x y : Image ℚ) (hs : w.ws.retrieveAny s = some (numImage n x))
    (ht : w.ws.retrieveAny t = some (numImage n y)) (wx : x.WF) (wy : y.WF) (hsz : x.size = y.size)
    (hx : ∀ q ∈ x.data, Fits n q) (hy : ∀ q ∈ y.data, Fits n q)
    (hint : n = .int → ∀ idx a b, x.at' idx = .ok a → y.at' idx = .ok b → Fits .int (a - b)) :
    ∃ r, Stored w (subtractCmd io ext w args) d (numImage n r) ∧ r.WF ∧ r.size = x.size ∧
      ∀ idx a b, x.at' idx = .ok a → y.at' idx = .ok b → ∃ c, r.at' idx = .ok c ∧ WrapsTo n (a - b) c := by
  simp only [← argsFilter_eq] at *
  obtain ⟨r, h1, h2, h3, h4⟩ := binary_images io ext Num.minus (· - ·) (fun _ _ _ => rfl)
    (fun a b => ⟨a - b, by push_cast; rfl⟩) w args s t d more ha n hn x y hs ht wx wy hsz hx hy hint
  exact ⟨r, h1, h2, h3, fun idx a b ea eb => (h4 idx a b ea eb).imp fun c h => ⟨h.1, h.2.2⟩⟩

/-- Images of different sizes, images of different pixel types, boolean data, containers of numbers, and
operands that do not exist: nothing changes. -/
theorem C116_rejected (io : FileIO Pay F) (ext : Val Pay → Val Pay → Res (Val Pay)) (w : World Pay F)
    (args : List Str) (s t o : Str) (more : List Str)
    (ha : plainWords args = ('$' :: s) :: ('$' :: t) :: o :: more)
    (f : Num → ℚ → ℚ → Res ℚ) :
    (∀ n x y, w.ws.retrieveAny s = some (numImage n x) → w.ws.retrieveAny t = some (numImage n y) →
      x.size ≠ y.size → Nothing w (binaryCmd io (binaryCore ext f) w args)) ∧
    (∀ n m x y, w.ws.retrieveAny s = some (numImage n x) → w.ws.retrieveAny t = some (numImage m y) →
      (n ≠ m ∨ n = .bool) → Nothing w (binaryCmd io (binaryCore ext f) w args)) ∧
    (∀ k n items, w.ws.retrieveAny s = some (.cont k (.num n) items) →
      Nothing w (binaryCmd io (binaryCore ext f) w args)) ∧
    ((w.ws.retrieveAny s = none ∨ (∃ v, w.ws.retrieveAny s = some v ∧ DataTy v.ty) ∧
        w.ws.retrieveAny t = none) → Nothing w (binaryCmd io (binaryCore ext f) w args)) := by
  simp only [← argsFilter_eq] at *
  refine ⟨?_, ?_, ?_, ?_⟩
  · intro n x y hs ht hsz
    rw [Nothing, binary_step io _ w args s t o more ha _ _ hs ht rfl rfl]
    have hc : combine (f n) x y = .throw .runtime := by
      rw [combine, Image.checkSizeSame, if_pos (by simpa using fun h => hsz h.symm), Res.throw_bind]
    unfold binaryCore
    cases n <;> simp [isBoolData, Val.ty, hc]
  · intro n m x y hs ht hnm
    rw [Nothing, binary_step io _ w args s t o more ha _ _ hs ht rfl rfl]
    unfold binaryCore
    rcases hnm with h | rfl
    · by_cases hb : isBoolData (numImage n x).ty || isBoolData (numImage m y).ty
      · rw [if_pos hb]
      · rw [if_neg hb]
        simp only [h, if_false]
    · simp [isBoolData, Val.ty]
  · intro k n items hs
    by_cases hex : ∃ b, w.ws.retrieveAny t = some b ∧ family (.cont k (.num n)) b.ty = true
    · obtain ⟨b, hb, hfb⟩ := hex
      rw [Nothing, binary_step io _ w args s t o more ha _ _ hs hb rfl hfb]
      have : binaryCore ext f (.cont k (.num n) items) b = .throw .invalidArg := by
        unfold binaryCore
        split <;> simp
      rw [this]
    · unfold Nothing binaryCmd
      rw [ha]
      dsimp only
      rw [loadVar io isMasterData w s _ hs rfl]
      dsimp only
      rw [loadVar_none io _ w t]
      · rfl
      · intro v hv
        by_contra h
        exact hex ⟨v, hv, by simpa [Val.ty] using h⟩
  · rintro (h | ⟨⟨v, hv, hm⟩, h⟩)
    · unfold Nothing binaryCmd
      rw [ha]
      dsimp only
      rw [loadVar_none io _ w s (by simp [h])]
      rfl
    · unfold Nothing binaryCmd
      rw [ha]
      dsimp only
      rw [loadVar io isMasterData w s v hv (dataTy_iff.1 hm)]
      dsimp only
      rw [loadVar_none io _ w t (by simp [h])]
      rfl

/-- Fewer than three arguments, policy words not counted: nothing changes. -/
theorem C116_few (io : FileIO Pay F) (core : Val Pay → Val Pay → Res (Val Pay)) (w : World Pay F)
    (args : List Str) (h : (plainWords args).length < 3) : Nothing w (binaryCmd io core w args) := by
  simp only [← argsFilter_eq] at *
  unfold Nothing binaryCmd
  match hf : argsFilter args, h with
  | [], _ => rfl
  | [_], _ => rfl
  | [_, _], _ => rfl
  | _ :: _ :: _ :: _, h => simp only [List.length_cons] at h; omega

theorem wraps_unique {n : Num} {q c c' : ℚ} (h : WrapsTo n q c) (h' : WrapsTo n q c') : c = c' := by
  have key : ∀ (M : ℕ) (a b : ℕ) (k k' : ℤ), a < M → b < M → (q : ℚ) = a + M * k → q = b + M * k' →
      (a : ℚ) = b := by
    intro M a b k k' ha hb e e'
    have e3 : (a : ℤ) + M * k = b + M * k' := by
      have : (a : ℚ) + M * k = b + M * k' := by rw [← e, ← e']
      exact_mod_cast this
    have h1 : ((a : ℤ) + M * k) % M = a := by
      rw [Int.add_mul_emod_self_left]; exact Int.emod_eq_of_lt (by omega) (by omega)
    have h2 : ((b : ℤ) + M * k') % M = b := by
      rw [Int.add_mul_emod_self_left]; exact Int.emod_eq_of_lt (by omega) (by omega)
    rw [e3, h2] at h1
    have : b = a := by exact_mod_cast h1
    rw [this]
  cases n with
  | bool => rcases h with ⟨_, rfl⟩ | ⟨_, rfl⟩ <;> rcases h' with ⟨_, rfl⟩ | ⟨_, rfl⟩ <;> first | rfl | contradiction
  | uchar =>
    obtain ⟨⟨a, ha, rfl⟩, k, e⟩ := h
    obtain ⟨⟨b, hb, rfl⟩, k', e'⟩ := h'
    exact key (2 ^ 8) a b k k' ha hb (by rw [e]; push_cast; ring) (by rw [e']; push_cast; ring)
  | int => rw [h.2, h'.2]
  | sizeT =>
    obtain ⟨⟨a, ha, rfl⟩, k, e⟩ := h
    obtain ⟨⟨b, hb, rfl⟩, k', e'⟩ := h'
    exact key (2 ^ 64) a b k k' ha hb (by rw [e]; push_cast; ring) (by rw [e']; push_cast; ring)
  | double => rw [h, h']

theorem wraps_fits {n : Num} {q c : ℚ} (h : WrapsTo n q c) : Fits n c := by
  cases n with
  | bool => rcases h with ⟨_, rfl⟩ | ⟨_, rfl⟩ <;> simp [Fits]
  | uchar => exact h.1
  | int => exact h.1
  | sizeT => exact h.1
  | double => trivial

/-- Undoing a difference: `(a - b) + b` is `a`, also modulo 2^8 and 2^64. -/
theorem wraps_undo {n : Num} (hn : n ≠ .bool) {a b c r : ℚ} (ha : Fits n a)
    (h : WrapsTo n (a - b) c) (h' : WrapsTo n (c + b) r) : r = a := by
  apply wraps_unique h'
  cases n with
  | bool => exact absurd rfl hn
  | uchar =>
    obtain ⟨_, k, e⟩ := h
    exact ⟨ha, -k, by push_cast; linarith⟩
  | int => exact ⟨ha, by rw [h.2]; ring⟩
  | sizeT =>
    obtain ⟨_, k, e⟩ := h
    exact ⟨ha, -k, by push_cast; linarith⟩
  | double => show a = c + b; rw [show c = a - b from h]; ring

/-- Subtracting `$t` from `$s` into `$d` and adding `$t` again into `$e` restores the image, also when
the differences of 8-bit pixels wrap around.
Full statement: for all pixel values; differences that are no `int` are undefined behaviour. -/
theorem C116_roundtrip_partial (io : FileIO Pay F) (ext : Val Pay → Val Pay → Res (Val Pay))
    (w : World Pay F) (args args' : List Str) (s t d e : Str) (more more' : List Str)
    (ha : plainWords args = ('$' :: s) :: ('$' :: t) :: ('$' :: d) :: more)
    (ha' : plainWords args' = ('$' :: d) :: ('$' :: t) :: ('$' :: e) :: more')
    (htd : ¬ SameVar t d) (n : Num) (hn : n ≠ .bool)
    (x y : Image ℚ) (hs : w.ws.retrieveAny s = some (numImage n x))
    (ht : w.ws.retrieveAny t = some (numImage n y)) (wx : x.WF) (wy : y.WF) (hsz : x.size = y.size)
    (hx : ∀ q ∈ x.data, Fits n q) (hy : ∀ q ∈ y.data, Fits n q)
    (hint : n = .int → ∀ idx a b, x.at' idx = .ok a → y.at' idx = .ok b → Fits .int (a - b)) :
    ∃ w₁, subtractCmd io ext w args = .ok ⟨w₁, .returned, none⟩ ∧
      Stored w₁ (addCmd io ext w₁ args') e (numImage n x) := by
  simp only [← argsFilter_eq] at *
  obtain ⟨r, ⟨w₁, h1, h2, h3⟩, wr, sr, hr⟩ := C116_subtract_partial io ext w args s t d more ((argsFilter_eq _).symm.trans ha) n hn x y
    hs ht wx wy hsz hx hy hint
  refine ⟨w₁, h1, ?_⟩
  have hex : ∀ idx c, r.at' idx = .ok c → ∃ a b, x.at' idx = .ok a ∧ y.at' idx = .ok b ∧
      WrapsTo n (a - b) c := by
    intro idx c hc
    have hb := inBounds_of_at'_ok hc
    rw [sr] at hb
    have ex := wx.at' hb
    have ey := wy.at' (hsz ▸ hb)
    obtain ⟨c', e1, e2⟩ := hr idx _ _ ex ey
    rw [hc] at e1
    injection e1 with e1
    subst e1
    exact ⟨_, _, ex, ey, e2⟩
  have hrf : ∀ q ∈ r.data, Fits n q := by
    intro q hq
    obtain ⟨idx, hi⟩ := (wr.mem_data_iff q).mp hq
    obtain ⟨a, b, _, _, h⟩ := hex idx q hi
    exact wraps_fits h
  obtain ⟨r', h1', wr', sr', hr'⟩ := C116_add_partial io ext w₁ args' d t e more' ((argsFilter_eq _).symm.trans ha') n hn r y h2
    (by rw [h3.2 t htd]; exact ht) wr wy (by rw [sr, hsz]) hrf hy (by
      intro hi idx c b hc hb
      obtain ⟨a, b', ea, eb, h⟩ := hex idx c hc
      rw [hb] at eb
      injection eb with eb
      subst eb
      subst hi
      rw [h.2, sub_add_cancel]
      exact hx a ((wx.mem_data_iff _).mpr ⟨idx, ea⟩))
  have : x = r' := by
    refine wx.ext_data wr' (by rw [sr', sr]) ?_
    intro idx a hxa
    have hb := inBounds_of_at'_ok hxa
    have ey := wy.at' (hsz ▸ hb)
    obtain ⟨c, e1, e2⟩ := hr idx _ _ hxa ey
    obtain ⟨c', e1', e2'⟩ := hr' idx _ _ e1 ey
    rw [e1', wraps_undo hn (hx a ((wx.mem_data_iff _).mpr ⟨idx, hxa⟩)) e2 e2']
  rw [this]
  exact h1'

/-- `add` does not depend on the order of its operands. -/
theorem C116_comm (io : FileIO Pay F) (ext : Val Pay → Val Pay → Res (Val Pay))
    (w : World Pay F) (args args' : List Str) (s t d : Str) (more more' : List Str)
    (ha : plainWords args = ('$' :: s) :: ('$' :: t) :: ('$' :: d) :: more)
    (ha' : plainWords args' = ('$' :: t) :: ('$' :: s) :: ('$' :: d) :: more')
    (n : Num) (x y : Image ℚ) (hs : w.ws.retrieveAny s = some (numImage n x))
    (ht : w.ws.retrieveAny t = some (numImage n y)) (wx : x.WF) (wy : y.WF) :
    addCmd io ext w args = addCmd io ext w args' := by
  simp only [← argsFilter_eq] at *
  unfold addCmd
  rw [binary_step io _ w args s t _ more ha _ _ hs ht rfl rfl,
    binary_step io _ w args' t s _ more' ha' _ _ ht hs rfl rfl]
  have hc : combine (Num.plus n) x y = combine (Num.plus n) y x := by
    unfold combine Image.checkSizeSame
    by_cases h : x.size = y.size
    · rw [if_neg (by simp [h]), if_neg (by simp [h]), h,
        zipRes_comm (Num.plus n) (fun a b => by unfold Num.plus; rw [add_comm]) x.data y.data
          (by rw [wx.len, wy.len, h])]
    · rw [if_pos (by simpa using fun e => h e.symm), if_pos (by simpa using h)]
      rfl
  have : binaryCore ext Num.plus (numImage n x) (numImage n y) =
      binaryCore ext Num.plus (numImage n y) (numImage n x) := by
    unfold binaryCore
    simp only [Val.ty, Bool.or_self, if_true, hc]
  rw [this]

/-- Images with three channels: channel by channel, `RGB` modulo 2^8 (the library's `subtract` of `RGB`
images instead stops at zero, C10), `HSV` and `RGB_DOUBLE` exactly. `sub` chooses the command. -/
theorem C116_channels (io : FileIO Pay F) (ext : Val Pay → Val Pay → Res (Val Pay)) (w : World Pay F)
    (args : List Str) (s t d : Str) (more : List Str)
    (ha : plainWords args = ('$' :: s) :: ('$' :: t) :: ('$' :: d) :: more) (k : Nat) (n : Num)
    (hk : k = 10 ∧ n = .uchar ∨ k = 11 ∧ n = .double ∨ k = 12 ∧ n = .double)
    (x y : Image (Px3 ℚ)) (hs : w.ws.retrieveAny s = some (.atom (.image (.scalar k)) (.image3 x)))
    (ht : w.ws.retrieveAny t = some (.atom (.image (.scalar k)) (.image3 y))) (wx : x.WF) (wy : y.WF)
    (hsz : x.size = y.size)
    (hx : ∀ p ∈ x.data, Fits n p.c0 ∧ Fits n p.c1 ∧ Fits n p.c2)
    (hy : ∀ p ∈ y.data, Fits n p.c0 ∧ Fits n p.c1 ∧ Fits n p.c2) :
    (∃ r, Stored w (addCmd io ext w args) d (.atom (.image (.scalar k)) (.image3 r)) ∧ r.WF ∧
      r.size = x.size ∧ ∀ idx a b, x.at' idx = .ok a → y.at' idx = .ok b → ∃ c, r.at' idx = .ok c ∧
        WrapsTo n (a.c0 + b.c0) c.c0 ∧ WrapsTo n (a.c1 + b.c1) c.c1 ∧ WrapsTo n (a.c2 + b.c2) c.c2) ∧
    (∃ r, Stored w (subtractCmd io ext w args) d (.atom (.image (.scalar k)) (.image3 r)) ∧ r.WF ∧
      r.size = x.size ∧ ∀ idx a b, x.at' idx = .ok a → y.at' idx = .ok b → ∃ c, r.at' idx = .ok c ∧
        WrapsTo n (a.c0 - b.c0) c.c0 ∧ WrapsTo n (a.c1 - b.c1) c.c1 ∧
        WrapsTo n (a.c2 - b.c2) c.c2) := by
  simp only [← argsFilter_eq] at *
  have hcn : channelNum k = some n := by
    rcases hk with ⟨rfl, rfl⟩ | ⟨rfl, rfl⟩ | ⟨rfl, rfl⟩ <;> rfl
  have hni : n ≠ .int := by rcases hk with ⟨_, rfl⟩ | ⟨_, rfl⟩ | ⟨_, rfl⟩ <;> decide
  have hma : isMasterData (.image (.scalar k)) = true := by
    rcases hk with ⟨rfl, rfl⟩ | ⟨rfl, rfl⟩ | ⟨rfl, rfl⟩ <;> rfl
  have main : ∀ (f : Num → ℚ → ℚ → Res ℚ) (g : ℚ → ℚ → ℚ), (∀ n a b, f n a b = n.wrap (g a b)) →
      (∀ a b : ℤ, ∃ c : ℤ, g a b = c) →
      ∃ r, Stored w (binaryCmd io (binaryCore ext f) w args) d (.atom (.image (.scalar k)) (.image3 r)) ∧
        r.WF ∧ r.size = x.size ∧ ∀ idx a b, x.at' idx = .ok a → y.at' idx = .ok b →
          ∃ c, r.at' idx = .ok c ∧ WrapsTo n (g a.c0 b.c0) c.c0 ∧ WrapsTo n (g a.c1 b.c1) c.c1 ∧
            WrapsTo n (g a.c2 b.c2) c.c2 := by
    intro f g hf hg
    have one : ∀ a b : ℚ, Fits n a → Fits n b → ∃ c, f n a b = .ok c ∧ WrapsTo n (g a b) c := by
      intro a b ha hb
      rw [hf]
      apply wrap_wrapsTo
      · intro hd
        obtain ⟨k, rfl⟩ := fits_int ha hd
        obtain ⟨k', rfl⟩ := fits_int hb hd
        exact hg k k'
      · intro hi; exact absurd hi hni
    have hex : ∀ idx a b, x.at' idx = .ok a → y.at' idx = .ok b → ∃ c, px3Op (f n) a b = .ok c ∧
        WrapsTo n (g a.c0 b.c0) c.c0 ∧ WrapsTo n (g a.c1 b.c1) c.c1 ∧ WrapsTo n (g a.c2 b.c2) c.c2 := by
      intro idx a b ea eb
      obtain ⟨a0, a1, a2⟩ := hx a ((wx.mem_data_iff _).mpr ⟨idx, ea⟩)
      obtain ⟨b0, b1, b2⟩ := hy b ((wy.mem_data_iff _).mpr ⟨idx, eb⟩)
      obtain ⟨c0, e0, h0⟩ := one _ _ a0 b0
      obtain ⟨c1, e1, h1⟩ := one _ _ a1 b1
      obtain ⟨c2, e2, h2⟩ := one _ _ a2 b2
      refine ⟨⟨c0, c1, c2⟩, ?_, h0, h1, h2⟩
      rw [px3Op, e0, Res.ok_bind, e1, Res.ok_bind, e2, Res.ok_bind]
    haveI : Inhabited (Px3 ℚ) := ⟨⟨0, 0, 0⟩⟩
    obtain ⟨r, e, wr, sr, hr⟩ := combine_ok (px3Op (f n)) x y wx wy hsz fun idx a b ea eb =>
      (hex idx a b ea eb).imp fun c h => h.1
    refine ⟨r, ?_, wr, sr, fun idx a b ea eb => ?_⟩
    · apply stored_put
      rw [binary_step io _ w args s t _ more ha _ _ hs ht hma
        (by rcases hk with ⟨rfl, rfl⟩ | ⟨rfl, rfl⟩ | ⟨rfl, rfl⟩ <;> rfl)]
      simp only [binaryCore, isBoolData, Val.ty, Bool.or_self, Bool.false_eq_true, if_false, hcn, if_true,
        e, Res.ok_bind, hma]
      simp [saveArg, isVar, varName]
    · obtain ⟨c, h1, h2⟩ := hr idx a b ea eb
      obtain ⟨c', h1', h2'⟩ := hex idx a b ea eb
      rw [h2] at h1'
      injection h1' with h1'
      subst h1'
      exact ⟨c, h1, h2'⟩
  exact ⟨main Num.plus (· + ·) (fun _ _ _ => rfl) (fun a b => ⟨a + b, by push_cast; rfl⟩),
    main Num.minus (· - ·) (fun _ _ _ => rfl) (fun a b => ⟨a - b, by push_cast; rfl⟩)⟩

example (io : FileIO Pay Unit) (ext : Val Pay → Val Pay → Res (Val Pay)) :=
  C116_channels io ext
    ⟨⟨[(['a'], .atom (.image (.scalar 10)) (.image3 ⟨[2, 1], [⟨200, 7, 1⟩, ⟨2, 3, 4⟩]⟩)),
      (['b'], .atom (.image (.scalar 10)) (.image3 ⟨[2, 1], [⟨100, 9, 2⟩, ⟨255, 0, 4⟩]⟩))]⟩, ()⟩
    ["$a".toList, "par".toList, "$b".toList, "$d".toList] ['a'] ['b'] ['d'] [] (by decide +kernel) 10 .uchar
    (.inl ⟨rfl, rfl⟩) _ _ rfl rfl ⟨by decide, by decide, by decide⟩ ⟨by decide, by decide, by decide⟩ rfl
    (by
      intro p hp
      simp only [List.mem_cons, List.not_mem_nil, or_false] at hp
      rcases hp with rfl | rfl
      · exact ⟨⟨200, by norm_num⟩, ⟨7, by norm_num⟩, ⟨1, by norm_num⟩⟩
      · exact ⟨⟨2, by norm_num⟩, ⟨3, by norm_num⟩, ⟨4, by norm_num⟩⟩)
    (by
      intro p hp
      simp only [List.mem_cons, List.not_mem_nil, or_false] at hp
      rcases hp with rfl | rfl
      · exact ⟨⟨100, by norm_num⟩, ⟨9, by norm_num⟩, ⟨2, by norm_num⟩⟩
      · exact ⟨⟨255, by norm_num⟩, ⟨0, by norm_num⟩, ⟨4, by norm_num⟩⟩)

/-- Adding 2^31 - 1 and 1 in `int` images is undefined behaviour. -/
theorem C116_overflow_violation (io : FileIO Pay Unit) (ext : Val Pay → Val Pay → Res (Val Pay)) :
    ∃ (w : World Pay Unit) (args : List Str) (x y : Image ℚ),
      w.ws.retrieveAny ['a'] = some (numImage .int x) ∧ w.ws.retrieveAny ['b'] = some (numImage .int y) ∧
      x.size = y.size ∧ x.WF ∧ y.WF ∧ (∀ q ∈ x.data ++ y.data, Fits .int q) ∧
      plainWords args = [['$', 'a'], ['$', 'b'], ['$', 'd']] ∧ addCmd io ext w args = .ub := by
  simp only [← argsFilter_eq] at *
  refine ⟨⟨⟨[(['a'], numImage .int ⟨[1], [2147483647]⟩), (['b'], numImage .int ⟨[1], [1]⟩)]⟩, ()⟩,
    [['$', 'a'], ['$', 'b'], ['$', 'd']], ⟨[1], [2147483647]⟩, ⟨[1], [1]⟩, rfl, rfl, rfl,
    ⟨by decide, by decide, by decide⟩, ⟨by decide, by decide, by decide⟩, ?_, by decide +kernel, ?_⟩
  · intro q hq
    simp only [List.mem_append, List.mem_cons, List.not_mem_nil, or_false] at hq
    rcases hq with rfl | rfl
    · exact ⟨2147483647, by norm_num, by norm_num, by norm_num⟩
    · exact ⟨1, by norm_num, by norm_num, by norm_num⟩
  · rw [addCmd, binary_step io _ _ _ ['a'] ['b'] ['$', 'd'] [] (by decide +kernel) _ _ rfl rfl rfl rfl]
    have : binaryCore ext Num.plus (numImage .int ⟨[1], [2147483647]⟩) (numImage .int ⟨[1], [1]⟩) = .ub := by
      simp only [binaryCore, isBoolData, Val.ty, Bool.or_self, Bool.false_eq_true, if_false, if_true]
      have : combine (Num.plus .int) ⟨[1], [2147483647]⟩ ⟨[1], [1]⟩ = .ub := by
        simp only [combine, Image.checkSizeSame, zipRes, Num.plus, Num.wrap]
        norm_num
      rw [this]
      rfl
    rw [this]

/-- A session with two 8-bit images of one size and one of another size. -/
def wPair : World Pay Unit :=
  ⟨⟨[(['a'], numImage .uchar ⟨[2, 1], [200, 7]⟩), (['b'], numImage .uchar ⟨[2, 1], [100, 9]⟩),
    (['c'], numImage .uchar ⟨[1, 2], [1, 2]⟩)]⟩, ()⟩

example : plainWords ["$a".toList, "par".toList, "$b".toList, "$d".toList] = [['$', 'a'], ['$', 'b'], ['$', 'd']] ∧
    wPair.ws.retrieveAny ['a'] = some (numImage .uchar ⟨[2, 1], [200, 7]⟩) ∧
    (⟨[2, 1], [200, 7]⟩ : Image ℚ).WF ∧ (∀ q ∈ [(200 : ℚ), 7], Fits .uchar q) := by
  refine ⟨by decide +kernel, rfl, ⟨by decide, by decide, by decide⟩, ?_⟩
  intro q hq
  simp only [List.mem_cons, List.not_mem_nil, or_false] at hq
  rcases hq with rfl | rfl
  · exact ⟨200, by norm_num, by norm_num⟩
  · exact ⟨7, by norm_num, by norm_num⟩

theorem wPair_fits (l : List Nat) (h : ∀ k ∈ l, k < 2 ^ 8) : ∀ q ∈ l.map (fun k : Nat => (k : ℚ)), Fits .uchar q := by
  intro q hq
  obtain ⟨k, hk, rfl⟩ := List.mem_map.1 hq
  exact ⟨k, h k hk, rfl⟩

theorem wPair_a : ∀ q ∈ (⟨[2, 1], [200, 7]⟩ : Image ℚ).data, Fits .uchar q := by
  simpa using wPair_fits [200, 7] (by decide)

theorem wPair_b : ∀ q ∈ (⟨[2, 1], [100, 9]⟩ : Image ℚ).data, Fits .uchar q := by
  simpa using wPair_fits [100, 9] (by decide)

example (io : FileIO Pay Unit) (ext : Val Pay → Val Pay → Res (Val Pay)) := C116_add_partial io ext wPair
  ["$a".toList, "par".toList, "$b".toList, "$d".toList] ['a'] ['b'] ['d'] [] (by decide +kernel) .uchar (by simp)
  ⟨[2, 1], [200, 7]⟩ ⟨[2, 1], [100, 9]⟩ rfl rfl ⟨by decide, by decide, by decide⟩ ⟨by decide, by decide, by decide⟩ rfl
  wPair_a wPair_b (fun h => by cases h)

example (io : FileIO Pay Unit) (ext : Val Pay → Val Pay → Res (Val Pay)) := C116_subtract_partial io ext wPair
  ["$a".toList, "par".toList, "$b".toList, "$d".toList] ['a'] ['b'] ['d'] [] (by decide +kernel) .uchar (by simp)
  ⟨[2, 1], [200, 7]⟩ ⟨[2, 1], [100, 9]⟩ rfl rfl ⟨by decide, by decide, by decide⟩ ⟨by decide, by decide, by decide⟩ rfl
  wPair_a wPair_b (fun h => by cases h)

-- Subtracting `b` and adding it again gives `a` back.
example (io : FileIO Pay Unit) (ext : Val Pay → Val Pay → Res (Val Pay)) := C116_roundtrip_partial io ext wPair
  ["$a".toList, "$b".toList, "$d".toList] ["$d".toList, "$b".toList, "$e".toList] ['a'] ['b'] ['d'] ['e'] [] []
  (by decide +kernel) (by decide +kernel) (by rw [sameVar_iff]; decide +kernel) .uchar (by simp)
  ⟨[2, 1], [200, 7]⟩ ⟨[2, 1], [100, 9]⟩ rfl rfl ⟨by decide, by decide, by decide⟩ ⟨by decide, by decide, by decide⟩ rfl
  wPair_a wPair_b (fun h => by cases h)

example (io : FileIO Pay Unit) (ext : Val Pay → Val Pay → Res (Val Pay)) := C116_comm io ext wPair
  ["$a".toList, "$b".toList, "$d".toList] ["$b".toList, "$a".toList, "$d".toList] ['a'] ['b'] ['d'] [] []
  (by decide +kernel) (by decide +kernel) .uchar
  ⟨[2, 1], [200, 7]⟩ ⟨[2, 1], [100, 9]⟩ rfl rfl ⟨by decide, by decide, by decide⟩ ⟨by decide, by decide, by decide⟩

-- Images of different sizes.
example (io : FileIO Pay Unit) (ext : Val Pay → Val Pay → Res (Val Pay)) (f : Num → ℚ → ℚ → Res ℚ) :
    Nothing wPair (binaryCmd io (binaryCore ext f) wPair ["$a".toList, "$c".toList, "$d".toList]) :=
  (C116_rejected io ext wPair _ ['a'] ['c'] ['$', 'd'] [] (by decide +kernel) f).1 .uchar _ _ rfl rfl (by decide)

example (io : FileIO Pay Unit) (core : Val Pay → Val Pay → Res (Val Pay)) := C116_few io core wPair
  ["$a".toList, "$b".toList, "par".toList] (by decide +kernel)

example (io : FileIO Pay Unit) (ext : Val Pay → Val Pay → Res (Val Pay)) :
    ∃ out, addCmd io ext wPair ["$a".toList, "$b".toList, "$d".toList] = .ok out ∧ (out.world = wPair ∨
      ∃ o, (plainWords ["$a".toList, "$b".toList, "$d".toList])[2]? = some o ∧
        ((∃ d, o = '$' :: d ∧ OnlyVar wPair out.world d) ∨ (isVar o = false ∧ OnlyFile io wPair out.world o))) := by
  obtain ⟨r, ⟨w', e, -⟩, -⟩ := C116_add_partial io ext wPair
    ["$a".toList, "$b".toList, "$d".toList] ['a'] ['b'] ['d'] [] (by decide +kernel) .uchar (by simp)
    ⟨[2, 1], [200, 7]⟩ ⟨[2, 1], [100, 9]⟩ rfl rfl ⟨by decide, by decide, by decide⟩ ⟨by decide, by decide, by decide⟩ rfl
    wPair_a wPair_b (fun h => by cases h)
  exact ⟨_, e, C116_frame io _ wPair _ _ e⟩

end TinyDIP.Props
