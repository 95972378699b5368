import Verif.Spec.CliData
import Verif.Lemmas.CliNum
import Verif.Lemmas.Pixelwise
import Mathlib.Data.List.Perm.Subperm
import Mathlib.Tactic.Push
import Mathlib.Tactic.Linarith
import Mathlib.Tactic.Ring
import Mathlib.Tactic.NormNum

namespace TinyDIP.Cli

variable {F P : Type}

theorem mapM_itemNum (n : Num) (l : List ℚ) :
    (l.map fun q => (.atom (.num n) (.num q) : Val Pay)).mapM itemNum = some l := by
  induction l with
  | nil => rfl
  | cons a l ih => simp [List.mapM_cons, itemNum, ih]

theorem numData_holds {v : Val Pay} {n : Num} {l : List ℚ} (h : Holds v n l) :
    numData v = some (n, l) := by
  cases h with
  | image n im => rfl
  | cont k n l =>
    show ((l.map fun q => (.atom (.num n) (.num q) : Val Pay)).mapM itemNum).map _ = _
    rw [mapM_itemNum]
    rfl

theorem isMasterData_holds {v : Val Pay} {n : Num} {l : List ℚ} (h : Holds v n l) :
    isMasterData v.ty = true := by
  cases h <;> rfl

theorem loadVar (io : FileIO P F) (check : Ty → Bool) (w : World P F) (s : Str) (v : Val P)
    (h : w.ws.retrieveAny s = some v) (hc : check v.ty = true) :
    loadArg io check w ('$' :: s) = .ok (some v) := by
  unfold Workspace.retrieveAny at h
  simp [loadArg, isVar, varName, h, hc]

theorem loadVar_none (io : FileIO P F) (check : Ty → Bool) (w : World P F) (s : Str)
    (h : ∀ v, w.ws.retrieveAny s = some v → check v.ty = false) :
    loadArg io check w ('$' :: s) = .ok none := by
  unfold Workspace.retrieveAny at h
  cases e : w.ws.find (sanitize s) with
  | none => simp [loadArg, isVar, varName, e]
  | some v => simp [loadArg, isVar, varName, e, h v e]

theorem stored_put (w : World P F) (d : Str) (r : Val P) (res : Res (Out P F))
    (h : res = .ok ⟨{ w with ws := w.ws.put d r }, .returned, none⟩) : Stored w res d r := by
  refine ⟨_, h, by simp [Workspace.retrieveAny_put], rfl, fun m hm => ?_⟩
  rw [sameVar_iff] at hm
  simp [Workspace.retrieveAny_put, hm]

theorem saveArg_frame (io : FileIO P F) (w : World P F) (o : Str) (r : Val P) :
    (∃ d, o = '$' :: d ∧ OnlyVar w (saveArg io w o r).1 d) ∨
      (isVar o = false ∧ OnlyFile io w (saveArg io w o r).1 o) := by
  unfold saveArg
  by_cases hv : isVar o = true
  · left
    cases o with
    | nil => simp [isVar] at hv
    | cons c d =>
      have hc : c = '$' := by simpa [isVar] using hv
      subst hc
      refine ⟨d, rfl, ?_⟩
      rw [if_pos hv]
      refine ⟨rfl, fun m hm => ?_⟩
      rw [sameVar_iff] at hm
      simp [varName, Workspace.retrieveAny_put, hm]
  · right
    refine ⟨by simpa using hv, ?_⟩
    rw [if_neg hv]
    cases h : io.save w.fs (sanitize o) r with
    | none => exact ⟨rfl, .inl rfl⟩
    | some fs => exact ⟨rfl, .inr ⟨sanitize o, r, means_iff.2 rfl, h⟩⟩

theorem wrap_fits {n : Num} {q : ℚ} (hn : n ≠ .bool) (h : Fits n q) : n.wrap q = .ok q := by
  cases n with
  | bool => exact absurd rfl hn
  | uchar =>
    obtain ⟨k, hk, rfl⟩ := h
    simp only [Num.wrap, Int.floor_natCast]
    rw [Int.emod_eq_of_lt (by omega) (by omega)]
    simp
  | int =>
    obtain ⟨k, h1, h2, rfl⟩ := h
    have a : (-2 ^ 31 : ℚ) ≤ (k : ℚ) := by exact_mod_cast h1
    have b : (k : ℚ) < 2 ^ 31 := by exact_mod_cast h2
    simp only [Num.wrap]
    rw [if_pos ⟨a, b⟩]
  | sizeT =>
    obtain ⟨k, hk, rfl⟩ := h
    simp only [Num.wrap, Int.floor_natCast]
    rw [Int.emod_eq_of_lt (by omega) (by omega)]
    simp
  | double => rfl

theorem wrap_wrapsTo {n : Num} {q : ℚ} (hq : n ≠ .double → ∃ k : ℤ, q = k)
    (hi : n = .int → Fits .int q) : ∃ c, n.wrap q = .ok c ∧ WrapsTo n q c := by
  cases n with
  | bool =>
    by_cases h : q = 0
    · exact ⟨0, by simp [Num.wrap, h], Or.inl ⟨h, rfl⟩⟩
    · exact ⟨1, by simp [Num.wrap, h], Or.inr ⟨h, rfl⟩⟩
  | uchar =>
    obtain ⟨k, rfl⟩ := hq (by simp)
    refine ⟨((k % 2 ^ 8 : ℤ) : ℚ), by simp [Num.wrap], ⟨(k % 2 ^ 8).toNat, by omega, ?_⟩, k / 2 ^ 8, ?_⟩
    · have : ((k % 2 ^ 8).toNat : ℤ) = k % 2 ^ 8 := Int.toNat_of_nonneg (by omega)
      exact_mod_cast this.symm
    · have : k = k % 2 ^ 8 + 2 ^ 8 * (k / 2 ^ 8) := by omega
      exact_mod_cast this
  | int =>
    have := hi rfl
    exact ⟨q, wrap_fits (by simp) this, this, rfl⟩
  | sizeT =>
    obtain ⟨k, rfl⟩ := hq (by simp)
    refine ⟨((k % 2 ^ 64 : ℤ) : ℚ), by simp [Num.wrap], ⟨(k % 2 ^ 64).toNat, by omega, ?_⟩,
      k / 2 ^ 64, ?_⟩
    · have : ((k % 2 ^ 64).toNat : ℤ) = k % 2 ^ 64 := Int.toNat_of_nonneg (by omega)
      exact_mod_cast this.symm
    · have : k = k % 2 ^ 64 + 2 ^ 64 * (k / 2 ^ 64) := by omega
      exact_mod_cast this
  | double => exact ⟨q, rfl, rfl⟩

/-- Every grouping gives the exact sum when every selection of operands has a representable sum. -/
theorem eval_exact {n : Num} (hn : n ≠ .bool) (t : RedTree ℚ)
    (h : ∀ s : List ℚ, s.Subperm t.leaves → Fits n s.sum) : t.eval n.plus = .ok t.leaves.sum := by
  induction t with
  | leaf a => simp [RedTree.eval, RedTree.leaves]
  | node l r ihl ihr =>
    have hl := ihl fun s hs => h s (hs.trans (List.sublist_append_left _ _).subperm)
    have hr := ihr fun s hs => h s (hs.trans (List.sublist_append_right _ _).subperm)
    simp only [RedTree.eval, hl, hr, Res.ok_bind, RedTree.leaves, List.sum_append, Num.plus]
    apply wrap_fits hn
    have := h (l.leaves ++ r.leaves) (List.Subperm.refl _)
    rwa [List.sum_append] at this

/-- Grouping does not matter modulo `m`. -/
theorem eval_mod {n : Num} {m : ℕ}
    (hw : ∀ q, n.wrap q = .ok ((⌊q⌋ % (m : ℤ) : ℤ) : ℚ)) (u : RedTree ℚ) :
    ∀ ks : List ℕ, (∀ k ∈ ks, k < m) → u.leaves = ks.map (fun k : ℕ => (k : ℚ)) →
      u.eval n.plus = .ok ((ks.sum % m : ℕ) : ℚ) := by
  induction u with
  | leaf a =>
    intro ks hk hu
    match ks, hk, hu with
    | [k], hk, hu =>
      simp only [RedTree.leaves, List.map_cons, List.map_nil, List.cons.injEq, and_true] at hu
      have := Nat.mod_eq_of_lt (hk k (by simp))
      rw [List.sum_singleton, this, RedTree.eval, hu]
    | [], hk, hu => simp [RedTree.leaves] at hu
    | _ :: _ :: _, hk, hu => simp [RedTree.leaves] at hu
  | node l r ihl ihr =>
    intro ks hk hu
    simp only [RedTree.leaves] at hu
    obtain ⟨k1, k2, rfl, e1, e2⟩ := List.append_eq_map_iff.mp hu
    rw [RedTree.eval, ihl k1 (fun k h => hk k (by simp [h])) e1.symm,
      ihr k2 (fun k h => hk k (by simp [h])) e2.symm]
    simp only [Res.ok_bind, Num.plus, hw]
    have : ((k1.sum % m : ℕ) : ℚ) + ((k2.sum % m : ℕ) : ℚ) = ((k1.sum % m + k2.sum % m : ℕ) : ℚ) := by
      push_cast; rfl
    rw [this, Int.floor_natCast]
    have e : (((k1.sum % m + k2.sum % m : ℕ) : ℤ) % (m : ℤ) : ℤ) =
        (((k1 ++ k2).sum % m : ℕ) : ℤ) := by
      rw [List.sum_append, Nat.add_mod]
      norm_cast
    rw [e]
    norm_cast

/-- On `int` a grouping either overflows or gives the exact sum, which is then representable. -/
theorem eval_int (t : RedTree ℚ) (h : ∀ q ∈ t.leaves, Fits .int q) :
    t.eval Num.int.plus = .ub ∨
      (t.eval Num.int.plus = .ok t.leaves.sum ∧ -2 ^ 31 ≤ t.leaves.sum ∧ t.leaves.sum < 2 ^ 31) := by
  induction t with
  | leaf a =>
    right
    obtain ⟨k, h1, h2, e⟩ := h a (by simp [RedTree.leaves])
    refine ⟨by simp [RedTree.eval, RedTree.leaves], ?_, ?_⟩
    · simp only [RedTree.leaves, List.sum_singleton, e]; exact_mod_cast h1
    · simp only [RedTree.leaves, List.sum_singleton, e]; exact_mod_cast h2
  | node l r ihl ihr =>
    simp only [RedTree.eval]
    rcases ihl fun q hq => h q (by simp [RedTree.leaves, hq]) with e | ⟨e, _, _⟩
    · left; simp [e]
    · rcases ihr fun q hq => h q (by simp [RedTree.leaves, hq]) with e' | ⟨e', _, _⟩
      · left; simp [e, e']
      · rw [e, e']
        simp only [Res.ok_bind, Num.plus, Num.wrap, RedTree.leaves, List.sum_append]
        split
        · rename_i hh; exact Or.inr ⟨rfl, hh⟩
        · exact Or.inl rfl

/-- Sums of pairs, triples are exact: any grouping of three-channel pixels. -/
theorem eval_px3 (t : RedTree (Px3 ℚ)) :
    t.eval (fun a b => .ok (Px3.map2 (· + ·) a b)) =
      .ok ⟨(t.leaves.map Px3.c0).sum, (t.leaves.map Px3.c1).sum, (t.leaves.map Px3.c2).sum⟩ := by
  induction t with
  | leaf a => simp [RedTree.eval, RedTree.leaves]
  | node l r ihl ihr =>
    rw [RedTree.eval, ihl, ihr]
    simp only [RedTree.leaves, Px3.map2, Res.ok_bind, List.map_append, List.sum_append]

theorem stdMax_ok (a : ℚ) (l : List ℚ) :
    ∃ q, stdMax (a :: l) = .ok q ∧ q ∈ a :: l ∧ ∀ x ∈ a :: l, x ≤ q := by
  refine ⟨_, rfl, ?_⟩
  have key : ∀ (l : List ℚ) (m : ℚ), (l.foldl (fun m x => if m < x then x else m) m) ∈ m :: l ∧
      ∀ x ∈ m :: l, x ≤ l.foldl (fun m x => if m < x then x else m) m := by
    intro l
    induction l with
    | nil => intro m; simp
    | cons b l ih =>
      intro m
      simp only [List.foldl_cons]
      obtain ⟨h1, h2⟩ := ih (if m < b then b else m)
      have h3 := h2 _ (List.mem_cons_self)
      constructor
      · rcases List.mem_cons.mp h1 with h | h
        · rw [h]; split <;> simp
        · simp [h]
      · intro x hx
        simp only [List.mem_cons] at hx
        rcases hx with rfl | rfl | hx
        · split at h3
          · rename_i hlt; rw [if_pos hlt]; linarith
          · rename_i hlt; rw [if_neg hlt]; exact h3
        · split at h3
          · rename_i hlt; rw [if_pos hlt]; exact h3
          · rename_i hlt; rw [if_neg hlt]; push Not at hlt; linarith
        · exact h2 x (by simp [hx])
  exact key l a

theorem stdMin_ok (a : ℚ) (l : List ℚ) :
    ∃ q, stdMin (a :: l) = .ok q ∧ q ∈ a :: l ∧ ∀ x ∈ a :: l, q ≤ x := by
  refine ⟨_, rfl, ?_⟩
  have key : ∀ (l : List ℚ) (m : ℚ), (l.foldl (fun m x => if x < m then x else m) m) ∈ m :: l ∧
      ∀ x ∈ m :: l, l.foldl (fun m x => if x < m then x else m) m ≤ x := by
    intro l
    induction l with
    | nil => intro m; simp
    | cons b l ih =>
      intro m
      simp only [List.foldl_cons]
      obtain ⟨h1, h2⟩ := ih (if b < m then b else m)
      have h3 := h2 _ (List.mem_cons_self)
      constructor
      · rcases List.mem_cons.mp h1 with h | h
        · rw [h]; split <;> simp
        · simp [h]
      · intro x hx
        simp only [List.mem_cons] at hx
        rcases hx with rfl | rfl | hx
        · split at h3
          · rename_i hlt; rw [if_pos hlt]; linarith
          · rename_i hlt; rw [if_neg hlt]; exact h3
        · split at h3
          · rename_i hlt; rw [if_pos hlt]; exact h3
          · rename_i hlt; rw [if_neg hlt]; push Not at hlt; linarith
        · exact h2 x (by simp [hx])
  exact key l a

theorem zipRes_eq {α β γ : Type} (f : α → β → Res γ) (g : α → β → γ) :
    ∀ (as : List α) (bs : List β), as.length = bs.length →
      (∀ p ∈ as.zip bs, f p.1 p.2 = .ok (g p.1 p.2)) → zipRes f as bs = .ok (List.zipWith g as bs)
  | [], [], _, _ => rfl
  | a :: as, b :: bs, hl, h => by
    rw [zipRes, h (a, b) (by simp), Res.ok_bind,
      zipRes_eq f g as bs (by simpa using hl) fun p hp => h p (by simp [hp])]
    rfl
  | [], _ :: _, hl, _ => by simp at hl
  | _ :: _, [], hl, _ => by simp at hl

/-- Pairs of stored elements are pairs of pixels. -/
theorem mem_zip_at {α β : Type} {x : Image α} {y : Image β} (wx : x.WF) (wy : y.WF)
    (h : x.size = y.size) {p : α × β} (hp : p ∈ x.data.zip y.data) :
    ∃ idx, x.at' idx = .ok p.1 ∧ y.at' idx = .ok p.2 := by
  have wz := zip_wf wx wy h Prod.mk
  obtain ⟨idx, e⟩ := (wz.mem_data_iff p).mp (by simpa [List.zip] using hp)
  have hb : InBounds x.size idx := by
    have := inBounds_of_at'_ok e
    exact this
  have ex := wx.at' hb
  have ey := wy.at' (idx := idx) (h ▸ hb)
  have := zip_at wx wy h Prod.mk ex ey
  rw [this] at e
  injection e with e
  refine ⟨idx, ?_, ?_⟩
  · rw [ex, ← e]
  · rw [ey, ← e]

theorem zipRes_comm {α γ : Type} (f : α → α → Res γ) (hf : ∀ a b, f a b = f b a) :
    ∀ (as bs : List α), as.length = bs.length → zipRes f as bs = zipRes f bs as
  | [], [], _ => rfl
  | a :: as, b :: bs, hl => by
    simp only [zipRes]
    rw [hf a b, zipRes_comm f hf as bs (by simpa using hl)]
  | [], _ :: _, hl => by simp at hl
  | _ :: _, [], hl => by simp at hl

end TinyDIP.Cli
