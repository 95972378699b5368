import Verif.Lemmas.Image

namespace TinyDIP

variable {σ β γ : Type}

theorem loop_append (body : σ → β → Res σ) (l₁ l₂ : List β) (s : σ) :
    loop body (l₁ ++ l₂) s = (loop body l₁ s >>= loop body l₂) := by
  induction l₁ generalizing s with
  | nil => rfl
  | cons b bs ih =>
    simp only [List.cons_append, loop]
    cases body s b <;> simp [ih]

theorem loop_flatMap (body : σ → γ → Res σ) (g : β → List γ) (l : List β) (s : σ) :
    loop (fun s b => loop body (g b) s) l s = loop body (l.flatMap g) s := by
  induction l generalizing s with
  | nil => rfl
  | cons b bs ih =>
    simp only [List.flatMap_cons, loop, loop_append]
    cases loop body (g b) s <;> simp [ih]

theorem loop_map (body : σ → γ → Res σ) (g : β → γ) (l : List β) (s : σ) :
    loop (fun s b => body s (g b)) l s = loop body (l.map g) s := by
  induction l generalizing s with
  | nil => rfl
  | cons b bs ih =>
    simp only [List.map_cons, loop]
    cases body s (g b) <;> simp [ih]

/-- Bodies that agree on the iterations give the same loop. -/
theorem loop_congr {body body' : σ → β → Res σ} {l : List β}
    (h : ∀ b ∈ l, ∀ s, body s b = body' s b) (s : σ) : loop body l s = loop body' l s := by
  induction l generalizing s with
  | nil => rfl
  | cons b bs ih =>
    simp only [loop, h b (by simp) s]
    cases body' s b <;> simp [ih (fun b hb s => h b (by simp [hb]) s)]

/-- Hoare rule: an invariant indexed by the remaining iterations. -/
theorem loop_inv {body : σ → β → Res σ} (P : List β → σ → Prop)
    (hstep : ∀ b bs s, P (b :: bs) s → ∃ s', body s b = .ok s' ∧ P bs s')
    (l : List β) (s : σ) (h0 : P l s) : ∃ s', loop body l s = .ok s' ∧ P [] s' := by
  induction l generalizing s with
  | nil => exact ⟨s, rfl, h0⟩
  | cons b bs ih =>
    obtain ⟨s', h1, h2⟩ := hstep b bs s h0
    obtain ⟨s'', h3, h4⟩ := ih s' h2
    exact ⟨s'', by simp [loop, h1, h3], h4⟩

/-- Hoare rule for counting loops: `P k` holds before iteration `k`. -/
theorem forUp_inv {n : Nat} {body : σ → Nat → Res σ} (P : Nat → σ → Prop)
    (hstep : ∀ k s, k < n → P k s → ∃ s', body s k = .ok s' ∧ P (k + 1) s')
    (s : σ) (h0 : P 0 s) : ∃ s', forUp n body s = .ok s' ∧ P n s' := by
  unfold forUp
  induction n with
  | zero => exact ⟨s, rfl, h0⟩
  | succ n ih =>
    obtain ⟨s', h1, h2⟩ := ih (fun k s hk => hstep k s (by omega))
    obtain ⟨s'', h3, h4⟩ := hstep n s' (by omega) h2
    exact ⟨s'', by rw [List.range_succ, loop_append, h1]; simp [loop, h3], h4⟩

theorem mem_iterYX {w h : Nat} {p : Nat × Nat} : p ∈ iterYX w h ↔ p.1 < w ∧ p.2 < h := by
  obtain ⟨x, y⟩ := p
  simp [iterYX, and_comm]

theorem mem_iterXY {w h : Nat} {p : Nat × Nat} : p ∈ iterXY w h ↔ p.1 < w ∧ p.2 < h := by
  obtain ⟨x, y⟩ := p
  simp [iterXY]

/-- The coordinate loop is the nested loop of the program. -/
theorem pixFor_iterYX (w h : Nat) (body : σ → Nat → Nat → Res σ) (s : σ) :
    pixFor (iterYX w h) body s = forUp h (fun s y => forUp w (fun s x => body s x y) s) s := by
  unfold pixFor forUp iterYX
  rw [← loop_flatMap]
  apply loop_congr
  intro y _ s
  exact (loop_map (fun s (p : Nat × Nat) => body s p.1 p.2) (fun x => (x, y)) (List.range w) s).symm

theorem pixFor_iterXY (w h : Nat) (body : σ → Nat → Nat → Res σ) (s : σ) :
    pixFor (iterXY w h) body s = forUp w (fun s x => forUp h (fun s y => body s x y) s) s := by
  unfold pixFor forUp iterXY
  rw [← loop_flatMap]
  apply loop_congr
  intro x _ s
  exact (loop_map (fun s (p : Nat × Nat) => body s p.1 p.2) (fun y => (x, y)) (List.range h) s).symm

/-! ### Pixel-writing loops -/

section Write
variable {α : Type} {w h : Nat}

open Classical in
/-- A loop whose iteration `b` writes `g (t b)` at position `t b` of the image shows, after any
list of iterations, `g` at the written positions and the old pixels elsewhere. -/
theorem loop_write (t : β → Nat × Nat) (g : Nat → Nat → α) (body : Image α → β → Res (Image α))
    (l : List β)
    (hstep : ∀ b ∈ l, ∀ im f, im.Shows w h f →
      ∃ im', body im b = .ok im' ∧ im'.Shows w h (updPx f (t b).1 (t b).2 (g (t b).1 (t b).2)))
    (im : Image α) (f : Nat → Nat → α) (hs : im.Shows w h f) :
    ∃ im', loop body l im = .ok im' ∧
      im'.Shows w h (fun x y => if ∃ b ∈ l, t b = (x, y) then g x y else f x y) := by
  induction l generalizing im f with
  | nil => exact ⟨im, rfl, by simpa using hs⟩
  | cons b bs ih =>
    obtain ⟨im1, h1, s1⟩ := hstep b (by simp) im f hs
    obtain ⟨im2, h2, s2⟩ := ih (fun b hb => hstep b (by simp [hb])) im1 _ s1
    refine ⟨im2, by simp [loop, h1, h2], s2.congr ?_⟩
    intro x y _ _
    by_cases h3 : ∃ b ∈ bs, t b = (x, y)
    · have h4 : ∃ b' ∈ b :: bs, t b' = (x, y) := by
        obtain ⟨b', hb', e⟩ := h3; exact ⟨b', by simp [hb'], e⟩
      simp only [h3, h4, if_true]
    · simp only [h3, if_false, updPx]
      by_cases h5 : t b = (x, y)
      · simp [h5]
      · have h4 : ¬ ∃ b' ∈ b :: bs, t b' = (x, y) := by
          rintro ⟨b', hb', e⟩
          rcases List.mem_cons.mp hb' with rfl | hb'
          · exact h5 e
          · exact h3 ⟨b', hb', e⟩
        rw [if_neg h4, if_neg]
        rintro ⟨rfl, rfl⟩; exact h5 rfl

/-- A loop over any list of iterations that covers the whole image: the image shows `g`. -/
theorem loop_fill (t : β → Nat × Nat) (g : Nat → Nat → α) (body : Image α → β → Res (Image α))
    (l : List β)
    (hstep : ∀ b ∈ l, ∀ im f, im.Shows w h f →
      ∃ im', body im b = .ok im' ∧ im'.Shows w h (updPx f (t b).1 (t b).2 (g (t b).1 (t b).2)))
    (hcov : ∀ x y, x < w → y < h → ∃ b ∈ l, t b = (x, y))
    (im : Image α) (f : Nat → Nat → α) (hs : im.Shows w h f) :
    ∃ im', loop body l im = .ok im' ∧ im'.Shows w h g := by
  obtain ⟨im', h1, h2⟩ := loop_write t g body l hstep im f hs
  refine ⟨im', h1, h2.congr fun x y hx hy => ?_⟩
  simp [hcov x y hx hy]

end Write

end TinyDIP
