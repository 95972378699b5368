import Verif.Lemmas.Geometry

namespace TinyDIP

variable {α : Type}

/-! ### mirror and replicate padding -/

/-- `out` is a `w × h` image that already equals `T` on the region `R`. -/
def Agrees (out : Image α) (w h : Nat) (R : Nat → Nat → Prop) (T : Nat → Nat → α) : Prop :=
  ∃ f, out.Shows w h f ∧ ∀ a b, a < w → b < h → R a b → f a b = T a b

theorem Agrees.paste {out b : Image α} {w h bw bh xl yl : Nat} {R : Nat → Nat → Prop}
    {T fb : Nat → Nat → α} (ho : Agrees out w h R T) (sb : b.Shows bw bh fb)
    (hx : xl + bw ≤ w) (hy : yl + bh ≤ h)
    (hb : ∀ x y, x < bw → y < bh → fb x y = T (xl + x) (yl + y)) (d : α) :
    ∃ out', paste2D out b xl yl d = .ok out' ∧
      Agrees out' w h (fun a b => R a b ∨ InBlock xl yl bw bh a b) T := by
  obtain ⟨f, sf, hf⟩ := ho
  obtain ⟨o, e, s⟩ := paste2D_fit sf sb hx hy d
  refine ⟨o, e, _, s, ?_⟩
  intro a b' ha hb' hR
  by_cases hi : InBlock xl yl bw bh a b'
  · simp only [if_pos hi]
    obtain ⟨⟨h1, h2⟩, h3, h4⟩ := hi
    rw [hb _ _ (by omega) (by omega)]
    congr 1 <;> omega
  · simp only [if_neg hi]
    exact hf a b' ha hb' (hR.resolve_right hi)

theorem Agrees.mono {out : Image α} {w h : Nat} {R R' : Nat → Nat → Prop}
    {T : Nat → Nat → α} (ho : Agrees out w h R T)
    (hR : ∀ a b, a < w → b < h → R' a b → R a b) : Agrees out w h R' T := by
  obtain ⟨f, sf, hf⟩ := ho
  exact ⟨f, sf, fun a b ha hb h => hf a b ha hb (hR a b ha hb h)⟩

theorem Agrees.shows {out : Image α} {w h : Nat} {R : Nat → Nat → Prop}
    {T : Nat → Nat → α} (ho : Agrees out w h R T) (hR : ∀ a b, a < w → b < h → R a b) :
    out.Shows w h T := by
  obtain ⟨f, sf, hf⟩ := ho
  exact sf.congr fun a b ha hb => (hf a b ha hb (hR a b ha hb))

/-- Pasting the block `[sx, ex] × [sy, ey]` of a source. -/
theorem Agrees.pasteSub (z : α) {out src : Image α} {w h sw sh xl yl sx ex sy ey : Nat}
    {R : Nat → Nat → Prop} {T fs : Nat → Nat → α} (ho : Agrees out w h R T)
    (ss : src.Shows sw sh fs) (h1 : sx ≤ ex) (h2 : ex < sw) (h3 : sy ≤ ey) (h4 : ey < sh)
    (hx : xl + (ex - sx + 1) ≤ w) (hy : yl + (ey - sy + 1) ≤ h)
    (hb : ∀ x y, sx + x ≤ ex → sy + y ≤ ey → fs (sx + x) (sy + y) = T (xl + x) (yl + y)) (d : α) :
    ∃ b out', subimage2 z src sx ex sy ey = .ok b ∧ paste2D out b xl yl d = .ok out' ∧
      Agrees out' w h (fun a b => R a b ∨ InBlock xl yl (ex - sx + 1) (ey - sy + 1) a b) T := by
  obtain ⟨b, eb, sb⟩ := subimage2_shows z ss h1 h2 h3 h4
  obtain ⟨o, e, s⟩ := ho.paste sb hx hy
    (fun x y hx hy => hb x y (by omega) (by omega)) d
  exact ⟨b, o, eb, e, s⟩

theorem constantPadding_agrees (z : α) {im : Image α} {w h : Nat} {f : Nat → Nat → α}
    (s : im.Shows w h f) {we he : Nat} (hx : w + 2 * we < 2 ^ 64) (hy : h + 2 * he < 2 ^ 64)
    (hf : (w + 2 * we) * (h + 2 * he) < 2 ^ 64) (d : α) (T : Nat → Nat → α)
    (hT : ∀ x y, x < w → y < h → T (we + x) (he + y) = f x y) :
    ∃ out, constantPadding z im we he d = .ok out ∧
      Agrees out (w + 2 * we) (h + 2 * he) (fun a b => InBlock we he w h a b) T := by
  obtain ⟨o, e, so⟩ := constantPadding_shows z s hx hy hf d
  refine ⟨o, e, _, so, ?_⟩
  intro a b _ _ hi
  simp only [if_pos hi]
  obtain ⟨⟨h1, h2⟩, h3, h4⟩ := hi
  rw [← hT _ _ (by omega) (by omega)]
  congr 1 <;> omega

theorem reflect_in {n e x : Nat} (h : x < n) : reflectCoord n e (e + x) = x := by
  unfold reflectCoord; repeat' split
  all_goals omega

theorem reflect_lo {n e x : Nat} (hn : 0 < n) (h : x ≤ e) : reflectCoord n e x = e - x := by
  unfold reflectCoord; repeat' split
  all_goals omega

theorem reflect_hi {n e x : Nat} (hn : 0 < n) : reflectCoord n e (n + e - 1 + x) = n - 1 - x := by
  unfold reflectCoord; repeat' split
  all_goals omega

theorem clamp_in {n e x : Nat} (h : x < n) : clampCoord n e (e + x) = x := by
  unfold clampCoord; repeat' split
  all_goals omega

theorem clamp_lo {n e x : Nat} (h : x < e) : clampCoord n e x = 0 := by
  unfold clampCoord; repeat' split
  all_goals omega

theorem clamp_hi {n e x : Nat} (h : n + e ≤ x) : clampCoord n e x = n - 1 := by
  unfold clampCoord; repeat' split
  all_goals omega

theorem mirrorPadding_shows (z : α) {im : Image α} {w h : Nat} {f : Nat → Nat → α}
    (s : im.Shows w h f) {we he : Nat} (hwe : we < w) (hhe : he < h)
    (hx : w + 2 * we < 2 ^ 64) (hy : h + 2 * he < 2 ^ 64)
    (hf : (w + 2 * we) * (h + 2 * he) < 2 ^ 64) (d : α) :
    ∃ out, mirrorPadding z im we he d = .ok out ∧
      out.Shows (w + 2 * we) (h + 2 * he)
        (fun a b => f (reflectCoord w we a) (reflectCoord h he b)) := by
  have hw := s.w_lt
  have hh := s.h_lt
  obtain ⟨o0, e0, a0⟩ := constantPadding_agrees z s hx hy hf d
    (fun a b => f (reflectCoord w we a) (reflectCoord h he b)) (by
      intro x y hx hy
      rw [reflect_in hx, reflect_in hy])
  obtain ⟨fv, ev, sv⟩ := flipVertical_shows s
  obtain ⟨fh, eh, sh⟩ := flipHorizontal_shows s
  obtain ⟨fhv, ehv, shv⟩ := flipHV_shows s
  obtain ⟨b1, o1, eb1, e1, a1⟩ := a0.pasteSub z sv (xl := we) (yl := 0) (sx := 0) (ex := w - 1)
    (sy := h - he - 1) (ey := h - 1) (by omega) (by omega) (by omega) (by omega) (by omega)
    (by omega) (by
      intro x y hx hy
      simp only [Nat.zero_add]
      rw [reflect_in (by omega), reflect_lo (by omega) (by omega)]
      exact congrArg₂ f (by omega) (by omega)) d
  obtain ⟨b2, o2, eb2, e2, a2⟩ := a1.pasteSub z sv (xl := we) (yl := h + he - 1) (sx := 0)
    (ex := w - 1) (sy := 0) (ey := he) (by omega) (by omega) (by omega) (by omega) (by omega)
    (by omega) (by
      intro x y hx hy
      simp only [Nat.zero_add]
      rw [reflect_in (by omega), reflect_hi (by omega)]) d
  obtain ⟨b3, o3, eb3, e3, a3⟩ := a2.pasteSub z sh (xl := 0) (yl := he) (sx := w - we - 1)
    (ex := w - 1) (sy := 0) (ey := h - 1) (by omega) (by omega) (by omega) (by omega) (by omega)
    (by omega) (by
      intro x y hx hy
      simp only [Nat.zero_add]
      rw [reflect_lo (by omega) (by omega), reflect_in (by omega)]
      exact congrArg₂ f (by omega) (by omega)) d
  obtain ⟨b4, o4, eb4, e4, a4⟩ := a3.pasteSub z sh (xl := w + we - 1) (yl := he) (sx := 0)
    (ex := we) (sy := 0) (ey := h - 1) (by omega) (by omega) (by omega) (by omega) (by omega)
    (by omega) (by
      intro x y hx hy
      simp only [Nat.zero_add]
      rw [reflect_hi (by omega), reflect_in (by omega)]) d
  obtain ⟨b5, o5, eb5, e5, a5⟩ := a4.pasteSub z shv (xl := 0) (yl := 0) (sx := w - we - 1)
    (ex := w - 1) (sy := h - he - 1) (ey := h - 1) (by omega) (by omega) (by omega) (by omega)
    (by omega) (by omega) (by
      intro x y hx hy
      simp only [Nat.zero_add]
      rw [reflect_lo (by omega) (by omega), reflect_lo (by omega) (by omega)]
      exact congrArg₂ f (by omega) (by omega)) d
  obtain ⟨b6, o6, eb6, e6, a6⟩ := a5.pasteSub z shv (xl := w + we - 1) (yl := 0) (sx := 0)
    (ex := we) (sy := h - he - 1) (ey := h - 1) (by omega) (by omega) (by omega) (by omega)
    (by omega) (by omega) (by
      intro x y hx hy
      simp only [Nat.zero_add]
      rw [reflect_hi (by omega), reflect_lo (by omega) (by omega)]
      exact congrArg₂ f (by omega) (by omega)) d
  obtain ⟨b7, o7, eb7, e7, a7⟩ := a6.pasteSub z shv (xl := 0) (yl := h + he - 1)
    (sx := w - we - 1) (ex := w - 1) (sy := 0) (ey := he) (by omega) (by omega) (by omega)
    (by omega) (by omega) (by omega) (by
      intro x y hx hy
      simp only [Nat.zero_add]
      rw [reflect_lo (by omega) (by omega), reflect_hi (by omega)]
      exact congrArg₂ f (by omega) (by omega)) d
  obtain ⟨b8, o8, eb8, e8, a8⟩ := a7.pasteSub z shv (xl := w + we - 1) (yl := h + he - 1)
    (sx := 0) (ex := we) (sy := 0) (ey := he) (by omega) (by omega) (by omega)
    (by omega) (by omega) (by omega) (by
      intro x y hx hy
      simp only [Nat.zero_add]
      rw [reflect_hi (by omega), reflect_hi (by omega)]) d
  refine ⟨o8, ?_, a8.shows ?_⟩
  · rw [mirrorPadding, if_neg (by simp [s.dim])]
    have w1 : wsub (wsub w we) 1 = w - we - 1 := by
      rw [wsub_of_le (a := w) (by omega) (by omega), wsub_of_le (by omega) (by omega)]
    have w2 : wsub (wsub h he) 1 = h - he - 1 := by
      rw [wsub_of_le (a := h) (by omega) (by omega), wsub_of_le (by omega) (by omega)]
    have w3 : wsub w 1 = w - 1 := wsub_of_le (by omega) (by omega)
    have w4 : wsub h 1 = h - 1 := wsub_of_le (by omega) (by omega)
    have w5 : wsub (wadd w we) 1 = w + we - 1 := by
      rw [wadd_of_lt (by omega), wsub_of_le (by omega) (by omega)]
    have w6 : wsub (wadd h he) 1 = h + he - 1 := by
      rw [wadd_of_lt (by omega), wsub_of_le (by omega) (by omega)]
    simp only [s.width, s.height, e0, ev, eh, ehv, Res.ok_bind, sv.width, sv.height, sh.width,
      sh.height, shv.width, shv.height, w1, w2, w3, w4, w5, w6, eb1, e1, eb2, e2, eb3, e3, eb4,
      e4, eb5, e5, eb6, e6, eb7, e7, eb8, e8]
  · intro a b ha hb
    by_cases ha1 : a < we
    · by_cases hb1 : b < he
      · left; left; left; right; exact ⟨⟨by omega, by omega⟩, by omega, by omega⟩
      · by_cases hb2 : b < he + h
        · left; left; left; left; left; right; exact ⟨⟨by omega, by omega⟩, by omega, by omega⟩
        · left; right; exact ⟨⟨by omega, by omega⟩, by omega, by omega⟩
    · by_cases ha2 : a < we + w
      · by_cases hb1 : b < he
        · left; left; left; left; left; left; left; right
          exact ⟨⟨by omega, by omega⟩, by omega, by omega⟩
        · by_cases hb2 : b < he + h
          · left; left; left; left; left; left; left; left
            exact ⟨⟨by omega, by omega⟩, by omega, by omega⟩
          · left; left; left; left; left; left; right
            exact ⟨⟨by omega, by omega⟩, by omega, by omega⟩
      · by_cases hb1 : b < he
        · left; left; right; exact ⟨⟨by omega, by omega⟩, by omega, by omega⟩
        · by_cases hb2 : b < he + h
          · left; left; left; left; right; exact ⟨⟨by omega, by omega⟩, by omega, by omega⟩
          · right; exact ⟨⟨by omega, by omega⟩, by omega, by omega⟩

theorem mirrorPadding_throws (z : α) {im : Image α} {w h : Nat} {f : Nat → Nat → α}
    (s : im.Shows w h f) {we he : Nat} (hbig : w ≤ we ∨ h ≤ he)
    (hx : w + 2 * we < 2 ^ 64) (hy : h + 2 * he < 2 ^ 64)
    (hf : (w + 2 * we) * (h + 2 * he) < 2 ^ 64) (d : α) :
    mirrorPadding z im we he d = .throw .runtime := by
  have hw := s.w_lt
  have hh := s.h_lt
  rw [mirrorPadding, if_neg (by simp [s.dim])]
  obtain ⟨o0, e0, s0⟩ := constantPadding_shows z s hx hy hf d
  obtain ⟨fv, ev, sv⟩ := flipVertical_shows s
  obtain ⟨fh, eh, sh⟩ := flipHorizontal_shows s
  simp only [s.width, s.height, e0, ev, eh, Res.ok_bind, sv.width, sv.height, sh.width, sh.height]
  by_cases hw0 : w = 0
  · rw [subimage2_throws z sv (Or.inr (Or.inr (Or.inl (by rw [hw0, wsub_of_gt] <;> omega))))]
    exact Res.throw_bind _ _
  by_cases hh0 : h ≤ he
  · have : wsub (wsub h he) 1 ≥ h := by
      by_cases h' : h = he
      · rw [h', wsub_of_le (a := he) (b := he) (by omega) (by omega), wsub_of_gt] <;> omega
      · rw [wsub_of_gt (a := h) (by omega) (by omega), wsub_of_le (by omega) (by omega)]
        omega
    rw [subimage2_throws z sv]
    · exact Res.throw_bind _ _
    · by_cases hz : h = 0
      · subst hz
        right; right; right
        rw [wsub_of_gt] <;> omega
      · right; left
        rw [wsub_of_le (a := h) (b := 1) (by omega) (by omega)]
        omega
  have hw' : w ≤ we := by omega
  have w2 : wsub (wsub h he) 1 = h - he - 1 := by
    rw [wsub_of_le (a := h) (by omega) (by omega), wsub_of_le (by omega) (by omega)]
  have w3 : wsub w 1 = w - 1 := wsub_of_le (by omega) (by omega)
  have w4 : wsub h 1 = h - 1 := wsub_of_le (by omega) (by omega)
  have w6 : wsub (wadd h he) 1 = h + he - 1 := by
    rw [wadd_of_lt (by omega), wsub_of_le (by omega) (by omega)]
  simp only [w2, w3, w4, w6]
  obtain ⟨b1, eb1, sb1⟩ := subimage2_shows z sv (sx := 0) (ex := w - 1) (sy := h - he - 1)
    (ey := h - 1) (by omega) (by omega) (by omega) (by omega)
  obtain ⟨o1, e1, s1⟩ := paste2D_fit s0 sb1 (xl := we) (yl := 0) (by omega) (by omega) d
  obtain ⟨b2, eb2, sb2⟩ := subimage2_shows z sv (sx := 0) (ex := w - 1) (sy := 0)
    (ey := he) (by omega) (by omega) (by omega) (by omega)
  obtain ⟨o2, e2, s2⟩ := paste2D_fit s1 sb2 (xl := we) (yl := h + he - 1) (by omega) (by omega) d
  simp only [eb1, e1, eb2, e2, Res.ok_bind]
  rw [subimage2_throws z sh]
  · exact Res.throw_bind _ _
  · left
    by_cases h' : w = we
    · rw [h', wsub_of_le (a := we) (b := we) (by omega) (by omega), wsub_of_gt] <;> omega
    · rw [wsub_of_gt (a := w) (by omega) (by omega), wsub_of_le (by omega) (by omega)]
      omega

/-- A loop each of whose iterations pastes the same-shaped block at position `pos n`. -/
theorem loop_paste {w h bw bh : Nat} {T : Nat → Nat → α} (body : Image α → Nat → Res (Image α))
    (px py : Nat → Nat) (l : List Nat)
    (hstep : ∀ n ∈ l, ∀ out R, Agrees out w h R T → ∃ out', body out n = .ok out' ∧
      Agrees out' w h (fun a b => R a b ∨ InBlock (px n) (py n) bw bh a b) T)
    (out : Image α) (R : Nat → Nat → Prop) (ho : Agrees out w h R T) :
    ∃ out', loop body l out = .ok out' ∧
      Agrees out' w h (fun a b => R a b ∨ ∃ n ∈ l, InBlock (px n) (py n) bw bh a b) T := by
  induction l generalizing out R with
  | nil => exact ⟨out, rfl, ho.mono (by simp)⟩
  | cons n l ih =>
    obtain ⟨o1, e1, a1⟩ := hstep n (by simp) out R ho
    obtain ⟨o2, e2, a2⟩ := ih (fun m hm => hstep m (by simp [hm])) o1 _ a1
    refine ⟨o2, by simp only [loop, e1, e2], a2.mono ?_⟩
    intro a b _ _ hR
    rcases hR with hR | ⟨m, hm, hi⟩
    · exact Or.inl (Or.inl hR)
    · rcases List.mem_cons.mp hm with rfl | hm
      · exact Or.inl (Or.inr hi)
      · exact Or.inr ⟨m, hm, hi⟩

theorem replicatePadding_shows (z : α) {im : Image α} {w h : Nat} {f : Nat → Nat → α}
    (s : im.Shows w h f) {we he : Nat} (hw0 : 0 < w) (hh0 : 0 < h)
    (hx : w + 2 * we < 2 ^ 64) (hy : h + 2 * he < 2 ^ 64)
    (hf : (w + 2 * we) * (h + 2 * he) < 2 ^ 64) (d : α) :
    ∃ out, replicatePadding z im we he d = .ok out ∧
      out.Shows (w + 2 * we) (h + 2 * he)
        (fun a b => f (clampCoord w we a) (clampCoord h he b)) := by
  have hw := s.w_lt
  have hh := s.h_lt
  let T : Nat → Nat → α := fun a b => f (clampCoord w we a) (clampCoord h he b)
  obtain ⟨o0, e0, a0⟩ := constantPadding_agrees z s hx hy hf d T (by
      intro x y hx hy
      simp only [T]
      rw [clamp_in hx, clamp_in hy])
  have w3 : wsub w 1 = w - 1 := wsub_of_le (by omega) (by omega)
  have w4 : wsub h 1 = h - 1 := wsub_of_le (by omega) (by omega)
  have w5 : wadd w we = w + we := wadd_of_lt (by omega)
  have w6 : wadd h he = h + he := wadd_of_lt (by omega)
  have w7 : wadd w (wmul 2 we) = w + 2 * we := by
    rw [wmul_of_lt (by omega), wadd_of_lt (by omega)]
  have w8 : wadd h (wmul 2 he) = h + 2 * he := by
    rw [wmul_of_lt (by omega), wadd_of_lt (by omega)]
  have w9 : wadd we w = w + we := by rw [wadd_of_lt (by omega), Nat.add_comm]
  have w10 : wadd he h = h + he := by rw [wadd_of_lt (by omega), Nat.add_comm]
  obtain ⟨o1, e1, a1⟩ := loop_paste (T := T) (bw := w - 1 - 0 + 1) (bh := 0 - 0 + 1)
    (fun output y => do
      let b ← subimage2 z im 0 (w - 1) 0 0
      paste2D output b we y d) (fun _ => we) (fun y => y) (List.range' 0 he) (by
      intro y hy out R ho
      obtain ⟨h1, h2⟩ := List.mem_range'_1.mp hy
      obtain ⟨b, o, eb, e, a⟩ := ho.pasteSub z s (xl := we) (yl := y) (sx := 0) (ex := w - 1)
        (sy := 0) (ey := 0) (by omega) (by omega) (by omega) (by omega) (by omega) (by omega) (by
          intro x' y' hx' hy'
          simp only [T]
          rw [clamp_in (by omega), clamp_lo (by omega)]
          exact congrArg₂ f (by omega) (by omega)) d
      exact ⟨o, by simp only [eb, Res.ok_bind, e], a⟩) o0 _ a0
  obtain ⟨o2, e2, a2⟩ := loop_paste (T := T) (bw := w - 1 - 0 + 1) (bh := (h - 1) - (h - 1) + 1)
    (fun output y => do
      let b ← subimage2 z im 0 (w - 1) (h - 1) (h - 1)
      paste2D output b we y d) (fun _ => we) (fun y => y)
      (List.range' (h + he) (h + 2 * he - (h + he))) (by
      intro y hy out R ho
      obtain ⟨h1, h2⟩ := List.mem_range'_1.mp hy
      obtain ⟨b, o, eb, e, a⟩ := ho.pasteSub z s (xl := we) (yl := y) (sx := 0) (ex := w - 1)
        (sy := h - 1) (ey := h - 1) (by omega) (by omega) (by omega) (by omega) (by omega)
        (by omega) (by
          intro x' y' hx' hy'
          simp only [T]
          rw [clamp_in (by omega), clamp_hi (by omega)]
          exact congrArg₂ f (by omega) (by omega)) d
      exact ⟨o, by simp only [eb, Res.ok_bind, e], a⟩) o1 _ a1
  obtain ⟨o3, e3, a3⟩ := loop_paste (T := T) (bw := 0 - 0 + 1) (bh := h - 1 - 0 + 1)
    (fun output x => do
      let b ← subimage2 z im 0 0 0 (h - 1)
      paste2D output b x he d) (fun x => x) (fun _ => he) (List.range' 0 we) (by
      intro x hx out R ho
      obtain ⟨h1, h2⟩ := List.mem_range'_1.mp hx
      obtain ⟨b, o, eb, e, a⟩ := ho.pasteSub z s (xl := x) (yl := he) (sx := 0) (ex := 0)
        (sy := 0) (ey := h - 1) (by omega) (by omega) (by omega) (by omega) (by omega) (by omega)
        (by
          intro x' y' hx' hy'
          simp only [T]
          rw [clamp_lo (by omega), clamp_in (by omega)]
          exact congrArg₂ f (by omega) (by omega)) d
      exact ⟨o, by simp only [eb, Res.ok_bind, e], a⟩) o2 _ a2
  obtain ⟨o4, e4, a4⟩ := loop_paste (T := T) (bw := (w - 1) - (w - 1) + 1) (bh := h - 1 - 0 + 1)
    (fun output x => do
      let b ← subimage2 z im (w - 1) (w - 1) 0 (h - 1)
      paste2D output b x he d) (fun x => x) (fun _ => he)
      (List.range' (w + we) (w + 2 * we - (w + we))) (by
      intro x hx out R ho
      obtain ⟨h1, h2⟩ := List.mem_range'_1.mp hx
      obtain ⟨b, o, eb, e, a⟩ := ho.pasteSub z s (xl := x) (yl := he) (sx := w - 1) (ex := w - 1)
        (sy := 0) (ey := h - 1) (by omega) (by omega) (by omega) (by omega) (by omega) (by omega)
        (by
          intro x' y' hx' hy'
          simp only [T]
          rw [clamp_hi (by omega), clamp_in (by omega)]
          exact congrArg₂ f (by omega) (by omega)) d
      exact ⟨o, by simp only [eb, Res.ok_bind, e], a⟩) o3 _ a3
  have st : (Image.ofSizes z [we, he]).Shows we he (fun _ _ => z) :=
    ofSizes_shows z (by omega) (by omega) (block_fits (by omega) (by omega) hf)
  have corner : ∀ (v : α), ((Image.ofSizes z [we, he]).setAllValue v).Shows we he (fun _ _ => v) :=
    fun v => setAllValue_shows st v
  obtain ⟨o5, e5, a5⟩ := a4.paste (corner (f 0 0)) (xl := 0) (yl := 0) (by omega) (by omega) (by
    intro x' y' hx' hy'
    simp only [T]
    rw [clamp_lo (by omega), clamp_lo (by omega)]) d
  obtain ⟨o6, e6, a6⟩ := a5.paste (corner (f (w - 1) 0)) (xl := w + we) (yl := 0) (by omega)
    (by omega) (by
    intro x' y' hx' hy'
    simp only [T]
    rw [clamp_hi (by omega), clamp_lo (by omega)]) d
  obtain ⟨o7, e7, a7⟩ := a6.paste (corner (f 0 (h - 1))) (xl := 0) (yl := h + he) (by omega)
    (by omega) (by
    intro x' y' hx' hy'
    simp only [T]
    rw [clamp_lo (by omega), clamp_hi (by omega)]) d
  obtain ⟨o8, e8, a8⟩ := a7.paste (corner (f (w - 1) (h - 1))) (xl := w + we) (yl := h + he)
    (by omega) (by omega) (by
    intro x' y' hx' hy'
    simp only [T]
    rw [clamp_hi (by omega), clamp_hi (by omega)]) d
  refine ⟨o8, ?_, a8.shows ?_⟩
  · rw [replicatePadding, if_neg (by simp [s.dim])]
    simp only [s.width, s.height, e0, Res.ok_bind, w3, w4, w5, w6, w7, w8, w9, w10, e1, e2, e3, e4,
      s.px 0 0 hw0 hh0, s.px (w - 1) 0 (by omega) hh0, s.px 0 (h - 1) hw0 (by omega),
      s.px (w - 1) (h - 1) (by omega) (by omega), e5, e6, e7, e8]
  · intro a b ha hb
    by_cases ha1 : a < we
    · by_cases hb1 : b < he
      · left; left; left; right; exact ⟨⟨by omega, by omega⟩, by omega, by omega⟩
      · by_cases hb2 : b < he + h
        · left; left; left; left; left; right
          exact ⟨a, List.mem_range'_1.mpr ⟨by omega, by omega⟩,
            ⟨by omega, by omega⟩, by omega, by omega⟩
        · left; right; exact ⟨⟨by omega, by omega⟩, by omega, by omega⟩
    · by_cases ha2 : a < we + w
      · by_cases hb1 : b < he
        · left; left; left; left; left; left; left; right
          exact ⟨b, List.mem_range'_1.mpr ⟨by omega, by omega⟩,
            ⟨by omega, by omega⟩, by omega, by omega⟩
        · by_cases hb2 : b < he + h
          · left; left; left; left; left; left; left; left
            exact ⟨⟨by omega, by omega⟩, by omega, by omega⟩
          · left; left; left; left; left; left; right
            exact ⟨b, List.mem_range'_1.mpr ⟨by omega, by omega⟩,
              ⟨by omega, by omega⟩, by omega, by omega⟩
      · by_cases hb1 : b < he
        · left; left; right; exact ⟨⟨by omega, by omega⟩, by omega, by omega⟩
        · by_cases hb2 : b < he + h
          · left; left; left; left; right
            exact ⟨a, List.mem_range'_1.mpr ⟨by omega, by omega⟩,
              ⟨by omega, by omega⟩, by omega, by omega⟩
          · right; exact ⟨⟨by omega, by omega⟩, by omega, by omega⟩

end TinyDIP
