import Verif.Spec.Volume
import Verif.Lemmas.Pixelwise
import Verif.Lemmas.Io

/-!
# Lemmas on volumes
-/

namespace TinyDIP.Vol

open TinyDIP

variable {α β γ : Type}

theorem volume_eq {w h d : Nat} (hp : w * h * d < 2 ^ 64) (hd : 0 < d ∨ w * h < 2 ^ 64) :
    volume w h d = w * h * d := by
  rcases hd with hd | hd
  · have : w * h < 2 ^ 64 := lt_of_le_of_lt (Nat.le_mul_of_pos_right _ hd) hp
    simp only [volume, wmul, W]
    rw [Nat.mod_eq_of_lt this, Nat.mod_eq_of_lt hp]
  · simp only [volume, wmul, W]
    rw [Nat.mod_eq_of_lt hd, Nat.mod_eq_of_lt hp]

theorem volume_mod (w h d : Nat) : volume w h d = (w * h * d) % 2 ^ 64 := by
  simp [volume, wmul, W, Nat.mul_mod]

theorem rowMajor3 (w h d x y z : Nat) : rowMajor [w, h, d] [x, y, z] = x + w * (y + h * z) := by
  simp [rowMajor]

theorem inBounds3 {w h d x y z : Nat} :
    InBounds [w, h, d] [x, y, z] ↔ x < w ∧ y < h ∧ z < d := by
  simp [InBounds]

theorem pos_lt {w h d x y z : Nat} (hx : x < w) (hy : y < h) (hz : z < d) :
    x + w * (y + h * z) < w * h * d := by
  have := rowMajor_lt (inBounds3.mpr ⟨hx, hy, hz⟩)
  rw [rowMajor3] at this
  simpa [mul_assoc] using this

theorem pos_inj {w h d x y z x' y' z' : Nat} (hx : x < w) (hy : y < h) (hz : z < d) (hx' : x' < w)
    (hy' : y' < h) (hz' : z' < d) (e : x + w * (y + h * z) = x' + w * (y' + h * z')) :
    x = x' ∧ y = y' ∧ z = z' := by
  have := rowMajor_inj (inBounds3.mpr ⟨hx, hy, hz⟩) (inBounds3.mpr ⟨hx', hy', hz'⟩)
    (by rw [rowMajor3, rowMajor3, e])
  simpa using this

theorem position_eq {w h d x y z : Nat} (hp : w * h * d < 2 ^ 64) (hx : x < w) (hy : y < h) (hz : z < d) :
    position w h x y z = x + w * (y + h * z) := by
  have h1 := pos_lt hx hy hz
  have e : position w h x y z = (z * w * h + y * w + x) % 2 ^ 64 := by
    simp [position, wadd, wmul, W, Nat.add_mod, Nat.mul_mod]
  have e2 : z * w * h + y * w + x = x + w * (y + h * z) := by ring
  rw [e, e2, Nat.mod_eq_of_lt (by omega)]

theorem at'_eq {v : Vol α} {w h d x y z : Nat} (hw : v.width = w) (hh : v.height = h) (hd : v.depth = d)
    (hp : w * h * d < 2 ^ 64) (hx : x < w) (hy : y < h) (hz : z < d) :
    v.at' x y z = vget v.data (x + w * (y + h * z)) := by
  subst hw hh hd
  rw [at', checkBoundary, if_neg (by omega), if_neg (by omega), if_neg (by omega), Res.ok_bind,
    position_eq hp hx hy hz]

theorem Holds.of_data {v : Vol α} {w h d : Nat} {f : Nat → Nat → Nat → α} (hw : v.width = w)
    (hh : v.height = h) (hd : v.depth = d) (hl : v.data.length = w * h * d) (hp : w * h * d < 2 ^ 64)
    (hs : w < 2 ^ 64 ∧ h < 2 ^ 64 ∧ d < 2 ^ 64)
    (hv : ∀ x y z, x < w → y < h → z < d → v.data[x + w * (y + h * z)]? = some (f x y z)) :
    v.Holds w h d f := by
  refine ⟨hw, hh, hd, hl, hp, hs, fun x y z hx hy hz => ?_⟩
  rw [at'_eq hw hh hd hp hx hy hz]
  simp [vget, hv x y z hx hy hz]

theorem Holds.data {v : Vol α} {w h d : Nat} {f : Nat → Nat → Nat → α} (s : v.Holds w h d f) {x y z : Nat}
    (hx : x < w) (hy : y < h) (hz : z < d) : v.data[x + w * (y + h * z)]? = some (f x y z) := by
  have := s.vox x y z hx hy hz
  rw [at'_eq s.w_eq s.h_eq s.d_eq s.fits hx hy hz] at this
  rw [List.getElem?_eq_getElem (by rw [s.len]; exact pos_lt hx hy hz)]
  rw [vget_eq_ok (by rw [s.len]; exact pos_lt hx hy hz)] at this
  injection this with this
  rw [this]

theorem Holds.volume {v : Vol α} {w h d : Nat} {f : Nat → Nat → Nat → α} (s : v.Holds w h d f) :
    Vol.volume v.width v.height v.depth = w * h * d := by
  rw [volume_mod, s.w_eq, s.h_eq, s.d_eq, Nat.mod_eq_of_lt s.fits]

theorem voxelwise_holds {v : Vol α} {w h d : Nat} {f : Nat → Nat → Nat → α} (s : v.Holds w h d f)
    (op : α → β) :
    ∃ out, voxelwise op v = .ok out ∧ out.Holds w h d (fun x y z => op (f x y z)) := by
  refine ⟨⟨v.width, v.height, v.depth, v.data.map op⟩, ?_, ?_⟩
  · rw [voxelwise, ofData, if_neg]
    rw [List.length_map, s.len, s.volume]; simp
  · refine Holds.of_data s.w_eq s.h_eq s.d_eq (by simpa using s.len) s.fits s.small ?_
    intro x y z hx hy hz
    simp [s.data hx hy hz]

theorem voxelwise2_holds {a : Vol α} {b : Vol β} {w h d : Nat} {f : Nat → Nat → Nat → α}
    {g : Nat → Nat → Nat → β} (sa : a.Holds w h d f) (sb : b.Holds w h d g) (op : α → β → γ) :
    ∃ out, voxelwise2 op a b = .ok out ∧ out.Holds w h d (fun x y z => op (f x y z) (g x y z)) := by
  have hl : a.data.length = b.data.length := by rw [sa.len, sb.len]
  refine ⟨⟨a.width, a.height, a.depth, List.zipWith op a.data b.data⟩, ?_, ?_⟩
  · rw [voxelwise2, stdTransform2_eq op _ _ hl, Res.ok_bind, ofData, if_neg]
    rw [List.length_zipWith, ← hl, Nat.min_self, sa.len, sa.volume]; simp
  · refine Holds.of_data sa.w_eq sa.h_eq sa.d_eq (by simp [← hl, sa.len]) sa.fits sa.small ?_
    intro x y z hx hy hz
    simp only [List.getElem?_zipWith, sa.data hx hy hz, sb.data hx hy hz]

theorem forUp3 {σ : Type} (body : σ → Nat × Nat × Nat → Res σ) (w h d : Nat) (s : σ) :
    forUp d (fun s z => forUp h (fun s y => forUp w (fun s x => body s (z, y, x)) s) s) s =
      loop body ((List.range d).flatMap fun z => (List.range h).flatMap fun y =>
        (List.range w).map fun x => (z, y, x)) s := by
  rw [← loop_flatMap]
  simp only [← loop_flatMap, ← loop_map]
  rfl

theorem loop_throw {σ γ : Type} {P : σ → Prop} {e : Exc} {body : σ → γ → Res σ} {l : List γ} {s : σ}
    (h0 : P s) (hstep : ∀ s b, b ∈ l → P s → (∃ s', body s b = .ok s' ∧ P s') ∨ body s b = .throw e)
    (hbad : ∃ b ∈ l, ∀ s, P s → body s b = .throw e) : loop body l s = .throw e := by
  induction l generalizing s with
  | nil => obtain ⟨b, hb, -⟩ := hbad; simp at hb
  | cons b bs ih =>
    rcases hstep s b (by simp) h0 with ⟨s', e1, h1⟩ | e1
    · simp only [loop, e1]
      refine ih h1 (fun s c hc hs => hstep s c (by simp [hc]) hs) ?_
      obtain ⟨c, hc, hcb⟩ := hbad
      rcases List.mem_cons.mp hc with rfl | hc
      · rw [hcb s h0] at e1; cases e1
      · exact ⟨c, hc, hcb⟩
    · simp only [loop, e1]

end TinyDIP.Vol
