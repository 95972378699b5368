import Verif.Spec.Conv
import Verif.Lemmas.Loop
import Verif.Lemmas.Image
import Verif.Lemmas.Geometry

/-! # Writing to images of any number of dimensions -/

namespace TinyDIP.Image.ShowsN

open TinyDIP

variable {α : Type} {β : Type} {im : Image α} {sz : List Nat} {f : List Nat → α}

theorem get (s : im.ShowsN sz f) {idx : List Nat} (h : InBounds sz idx) : im.at' idx = .ok (f idx) := s.px idx h

theorem getU (s : im.ShowsN sz f) {idx : List Nat} (h : InBounds sz idx) : im.atUnchecked idx = .ok (f idx) := by
  have h' : InBounds im.size idx := by rw [s.size]; exact h
  rw [← s.px idx h, s.wf.at' h', s.wf.atUnchecked h']

theorem congr (s : im.ShowsN sz f) {g : List Nat → α} (h : ∀ idx, InBounds sz idx → f idx = g idx) :
    im.ShowsN sz g := ⟨s.wf, s.size, fun idx hi => by rw [s.px idx hi, h idx hi]⟩

theorem setU (s : im.ShowsN sz f) {idx : List Nat} (h : InBounds sz idx) (v : α) :
    ∃ im', im.setAtUnchecked idx v = .ok im' ∧ im'.ShowsN sz (fun j => if j = idx then v else f j) := by
  have h' : InBounds im.size idx := by rw [s.size]; exact h
  refine ⟨_, s.wf.setAtUnchecked v h', s.wf.set_wf _ v, s.size, fun j hj => ?_⟩
  have hj' : InBounds im.size j := by rw [s.size]; exact hj
  have hlt := s.wf.rowMajor_lt hj'
  have h1 := s.px j hj
  rw [s.wf.at' hj'] at h1
  injection h1 with h1
  rw [(s.wf.set_wf (rowMajor im.size idx) v).at' hj']
  simp only [List.getElem_set]
  by_cases hij : j = idx
  · subst hij; simp
  · rw [if_neg hij, if_neg (fun hr => hij (rowMajor_inj h' hj' hr).symm), h1]

theorem setAt (s : im.ShowsN sz f) {idx : List Nat} (h : InBounds sz idx) (v : α) :
    ∃ im', im.setAt idx v = .ok im' ∧ im'.ShowsN sz (fun j => if j = idx then v else f j) := by
  have h' : InBounds im.size idx := by rw [s.size]; exact h
  obtain ⟨im', e, s'⟩ := s.setU h v
  exact ⟨im', by rw [s.wf.setAt v h', ← s.wf.setAtUnchecked v h', e], s'⟩

/-- A loop each of whose steps writes `g idx` at one coordinate tuple `pos b`. -/
theorem loop_write {body : Image α → β → Res (Image α)} {pos : β → List Nat} {g : List Nat → α}
    (l : List β) (hstep : ∀ b ∈ l, ∀ (im : Image α) f, im.ShowsN sz f → ∃ im', body im b = .ok im' ∧
      im'.ShowsN sz (fun j => if j = pos b then g j else f j))
    (s : im.ShowsN sz f) :
    ∃ im', loop body l im = .ok im' ∧
      ∀ [∀ j, Decidable (∃ b ∈ l, pos b = j)],
        im'.ShowsN sz (fun j => if ∃ b ∈ l, pos b = j then g j else f j) := by
  classical
  induction l generalizing im f with
  | nil => exact ⟨im, rfl, fun {_} => s.congr (by simp)⟩
  | cons b l ih =>
    obtain ⟨im1, e1, s1⟩ := hstep b (by simp) im f s
    obtain ⟨im2, e2, s2⟩ := ih (fun c hc => hstep c (by simp [hc])) s1
    refine ⟨im2, by simp [loop, e1, e2], fun {_} => s2.congr fun j _ => ?_⟩
    by_cases h1 : ∃ c ∈ l, pos c = j
    · have : ∃ c ∈ b :: l, pos c = j := by obtain ⟨c, hc, e⟩ := h1; exact ⟨c, by simp [hc], e⟩
      rw [if_pos h1, if_pos this]
    · rw [if_neg h1]
      by_cases h2 : j = pos b
      · rw [if_pos h2, if_pos ⟨b, by simp, h2.symm⟩]
      · rw [if_neg h2, if_neg]
        rintro ⟨c, hc, e⟩
        rcases List.mem_cons.mp hc with rfl | hc
        · exact h2 e.symm
        · exact h1 ⟨c, hc, e⟩

/-- As `loop_write`, when every coordinate tuple is written. -/
theorem loop_fill {body : Image α → β → Res (Image α)} {pos : β → List Nat} {g : List Nat → α}
    (l : List β) (hstep : ∀ b ∈ l, ∀ (im : Image α) f, im.ShowsN sz f → ∃ im', body im b = .ok im' ∧
      im'.ShowsN sz (fun j => if j = pos b then g j else f j))
    (hcov : ∀ j, InBounds sz j → ∃ b ∈ l, pos b = j) (s : im.ShowsN sz f) :
    ∃ im', loop body l im = .ok im' ∧ im'.ShowsN sz g := by
  classical
  obtain ⟨im', e, s'⟩ := loop_write l hstep s
  exact ⟨im', e, s'.congr fun j hj => if_pos (hcov j hj)⟩

end TinyDIP.Image.ShowsN

namespace TinyDIP

variable {α : Type}

theorem ofSizes_showsN (z : α) {sz : List Nat} (hp : sz.prod < 2 ^ 64) (hs : ∀ n ∈ sz, n < 2 ^ 64) :
    (Image.ofSizes z sz).ShowsN sz (fun _ => z) := by
  have wf : (Image.ofSizes z sz).WF := ⟨by simp [Image.ofSizes, prodW_of_lt hp], hp, hs⟩
  refine ⟨wf, rfl, fun idx hi => ?_⟩
  rw [wf.at' hi]
  simp [Image.ofSizes]

theorem inBounds3 {a b c x y z : Nat} : InBounds [a, b, c] [x, y, z] ↔ x < a ∧ y < b ∧ z < c := by
  simp [InBounds]

theorem Image.ShowsN.to2 {im : Image α} {w h : Nat} {f : List Nat → α} (s : im.ShowsN [w, h] f) :
    im.Shows w h (fun x y => f [x, y]) :=
  ⟨s.wf, s.size, fun x y hx hy => s.px [x, y] (inBounds2.mpr ⟨hx, hy⟩)⟩

theorem Image.Shows.toN {im : Image α} {w h : Nat} {f : Nat → Nat → α} (s : im.Shows w h f) :
    im.ShowsN [w, h] (fun idx => f (idx.getD 0 0) (idx.getD 1 0)) := by
  refine ⟨s.wf, s.size, fun idx hi => ?_⟩
  have hl := hi.length_eq
  match idx, hl with
  | [x, y], _ =>
    obtain ⟨hx, hy⟩ := inBounds2.mp hi
    exact s.px x y hx hy

end TinyDIP
