import Verif.Spec.Crash
import Verif.Lemmas.Io
import Verif.Lemmas.Text
import Verif.Lemmas.Samples
import Mathlib.Tactic.Ring

/-!
# Lemmas on interrupted writing
-/

namespace TinyDIP.Crash

open TinyDIP TinyDIP.Cli

variable {B : Type}

theorem Reaches.trans {p q r : Proc B} (h : Reaches p q) (h' : Reaches q r) : Reaches p r := by
  induction h' with
  | refl => exact h
  | step _ s ih => exact .step ih s

/-- The bytes the remaining calls hand over. -/
def rest : List (Op B) → List B
  | [] => []
  | .fwrite b :: t => b ++ rest t
  | _ :: t => rest t

/-- Calls that only write, then one `fclose`. -/
inductive Tail : List (Op B) → Prop
  | close : Tail [.fclose]
  | write (b : List B) (t : List (Op B)) : Tail t → Tail (.fwrite b :: t)

/-- What is true of every state during the calls. -/
inductive During (d : Disk B) (name : List Char) (ops : List (Op B)) : Proc B → Prop
  | start : During d name ops ⟨d, none, .fopen name :: ops⟩
  | open (d' : Disk B) (out held : List B) (todo : List (Op B)) : Replaced d name out d' → Tail todo →
      out ++ held ++ rest todo = rest ops → During d name ops ⟨d', some (name, held), todo⟩
  | closed (d' : Disk B) : Replaced d name (rest ops) d' → During d name ops ⟨d', none, []⟩

theorem replaced_append {d d' : Disk B} {name : List Char} {out : List B} (h : Replaced d name out d') (a : List B) :
    Replaced d name (out ++ a) (d'.append name a) := by
  refine ⟨fun n hn => ?_, ?_⟩
  · rw [Disk.append, if_neg hn, h.1 n hn]
  · rw [Disk.append, if_pos rfl, h.2]; rfl

theorem during {d : Disk B} {name : List Char} {ops : List (Op B)} (ht : Tail ops) {q : Proc B}
    (h : Reaches ⟨d, none, .fopen name :: ops⟩ q) : During d name ops q := by
  induction h with
  | refl => exact .start
  | step _ s ih =>
    cases ih with
    | start =>
      cases s
      refine .open _ [] [] _ ⟨fun n hn => ?_, ?_⟩ ht (by simp)
      · rw [Disk.empty, if_neg hn]
      · rw [Disk.empty, if_pos rfl]
    | «open» d' out held todo hr ht' he =>
      cases s with
      | fwrite _ _ _ b todo' =>
        cases ht' with
        | write _ _ ht' => exact .open _ out _ _ hr ht' (by simpa [rest] using he)
      | pass _ _ a b =>
        exact .open _ (out ++ a) _ _ (replaced_append hr a) ht' (by simpa using he)
      | fclose =>
        cases ht' with
        | close =>
          refine .closed _ ?_
          have := replaced_append hr held
          simp only [rest, List.append_nil] at he
          rwa [he] at this
    | closed d' hr => cases s

theorem disk_ext {d d1 d2 : Disk B} {name : List Char} (h1 : ∀ n, n ≠ name → d1 n = d n)
    (h2 : ∀ n, n ≠ name → d2 n = d n) (h : d1 name = d2 name) : d1 = d2 := by
  funext n
  by_cases hn : n = name
  · subst hn; exact h
  · rw [h1 n hn, h2 n hn]

/-- All writes can be handed over before anything is passed on. -/
theorem hand_over {d : Disk B} {name : List Char} {ops : List (Op B)} (ht : Tail ops) (held : List B) :
    Reaches ⟨d, some (name, held), ops⟩ ⟨d, some (name, held ++ rest ops), [.fclose]⟩ := by
  induction ht generalizing held with
  | close => simp only [rest, List.append_nil]; exact .refl
  | write b t _ ih =>
    have := ih (held ++ b)
    simp only [rest]
    rw [← List.append_assoc]
    exact Reaches.trans (.step .refl (.fwrite d name held b t)) this

/-- The states a stopped writer can leave, exactly. -/
theorem canLeave_iff {d : Disk B} {name : List Char} {ops : List (Op B)} (ht : Tail ops) (d' : Disk B) :
    CanLeave d (.fopen name :: ops) d' ↔ Torn d name (rest ops) d' := by
  constructor
  · rintro ⟨q, hq, rfl⟩
    cases during ht hq with
    | start => exact ⟨fun _ _ => rfl, Or.inl rfl⟩
    | «open» d' out held todo hr _ he =>
      refine ⟨hr.1, Or.inr ⟨out.length, ?_⟩⟩
      rw [← he, List.append_assoc, List.take_left]
      exact hr.2
    | closed d' hr => exact ⟨hr.1, Or.inr ⟨(rest ops).length, by rw [List.take_length]; exact hr.2⟩⟩
  · rintro ⟨h1, h2 | ⟨k, h2⟩⟩
    · exact ⟨_, .refl, disk_ext (fun _ _ => rfl) h1 h2.symm⟩
    · have r := Reaches.trans (.step .refl (.fopen d name ops)) (hand_over (d := d.empty name) (name := name) ht [])
      have s := Step.pass (d.empty name) name ((rest ops).take k) ((rest ops).drop k) [.fclose]
      rw [List.take_append_drop] at s
      refine ⟨_, .step r s, ?_⟩
      refine disk_ext (d := d) (name := name) (fun n hn => ?_) h1 ?_
      · simp only [Disk.append, Disk.empty, if_neg hn]
      · rw [h2]; simp [Disk.append, Disk.empty]

theorem ends_iff {d : Disk B} {name : List Char} {ops : List (Op B)} (ht : Tail ops) (d' : Disk B) :
    Ends d (.fopen name :: ops) d' ↔ Replaced d name (rest ops) d' := by
  constructor
  · rintro ⟨q, hq, h0, rfl⟩
    cases during ht hq with
    | start => simp at h0
    | «open» d' out held todo hr ht' he => simp only at h0; subst h0; cases ht'
    | closed d' hr => exact hr
  · intro h
    have r := Reaches.trans (.step .refl (.fopen d name ops)) (hand_over (d := d.empty name) (name := name) ht [])
    refine ⟨_, .step r (Step.fclose _ _ _ _), rfl, ?_⟩
    refine disk_ext (d := d) (name := name) (fun n hn => ?_) h.1 ?_
    · simp only [Disk.append, Disk.empty, if_neg hn]
    · rw [h.2]; simp [Disk.append, Disk.empty]

theorem twoWrites_writable {fs : Files} {name : List Char} (h : fs.writable name = true) (bytes : List Byte) :
    ∃ ops, twoWrites fs name bytes = (.fopen name :: ops, 0) ∧ Tail ops ∧ rest ops = bytes := by
  refine ⟨_, by unfold twoWrites; rw [if_pos h], .write _ _ (.write _ _ .close), ?_⟩
  simp [rest]

/-! ### Reading a cut 24-bit BMP file -/

theorem leAt_take (l : List Byte) (m k n : Nat) (h : k + n ≤ m) : leAt (l.take m) k n = leAt l k n := by
  induction n generalizing k with
  | zero => rfl
  | succ n ih =>
    simp only [leAt, ih (k + 1) (by omega), List.getD_eq_getElem?_getD]
    rw [List.getElem?_take, if_pos (by omega)]

/-- The bytes of `buf` that survived, then 255. -/
def worn (buf : List Byte) (m : Nat) : List Byte := buf.take m ++ List.replicate (buf.length - m) 255

theorem worn_get {buf : List Byte} {m i : Nat} (hi : i < buf.length) :
    (worn buf m)[i]? = some (if i < m then buf.getD i 0 else 255) := by
  unfold worn
  by_cases him : i < m
  · rw [List.getElem?_append_left (by simp; omega), List.getElem?_take, if_pos him, if_pos him,
      List.getD_eq_getElem?_getD, List.getElem?_eq_getElem hi]
    rfl
  · rw [List.getElem?_append_right (by simp; omega), List.getElem?_replicate, if_neg him, if_pos]
    simp; omega

theorem freadInto_cut {hdr buf : List Byte} {k : Nat} (hh : hdr.length = 54) (hk : 54 ≤ k) :
    freadInto (List.replicate buf.length 255) ((hdr ++ buf).take k) 54 buf.length = .ok (worn buf (k - 54)) := by
  have e : (((hdr ++ buf).take k).drop 54).take buf.length = buf.take (k - 54) := by
    rw [List.take_append, List.take_of_length_le (l := hdr) (by omega), List.drop_left' hh, List.take_take, hh]
    by_cases h : k - 54 ≤ buf.length
    · rw [Nat.min_eq_right h]
    · rw [Nat.min_eq_left (by omega), List.take_length, List.take_of_length_le (by omega)]
  unfold freadInto
  simp only [e]
  rw [if_pos (by simp)]
  unfold worn
  congr 2
  simp only [List.length_take, List.drop_replicate]
  congr 1
  omega

theorem bmpFileRead_cut {w h n k : Nat} {buf : List Byte} (hw : w * 3 + w % 4 < 2 ^ 31) (hh : h < 2 ^ 31)
    (hsz : (w * 3 + w % 4) * h < 2 ^ 31) (hb : buf.length = (w * 3 + w % 4) * h) (hk : 26 ≤ k) :
    bmpFileRead ((bmpHeader n w h ++ buf).take k) = .ok (w, h, worn buf (k - 54)) := by
  have hf := bmpHeader_file n w h buf (by omega) (by omega)
  have hlen : (bmpHeader n w h ++ buf).length = 54 + buf.length := by
    rw [List.length_append, bmpHeader_length]
  have hl : ((bmpHeader n w h ++ buf).take k).length = min k (54 + buf.length) := by
    rw [List.length_take, hlen]
  by_cases h54 : 54 ≤ k
  · have hf' : BmpFile ((bmpHeader n w h ++ buf).take k) 24 w h 54 40 :=
      ⟨by omega, by rw [leAt_take _ _ _ _ (by omega), hf.off_eq], by rw [leAt_take _ _ _ _ (by omega), hf.hs_eq],
        by rw [leAt_take _ _ _ _ (by omega), hf.w_eq], by rw [leAt_take _ _ _ _ (by omega), hf.h_eq],
        by rw [leAt_take _ _ _ _ (by omega), hf.bits_eq]⟩
    refine bmpFileRead_up hf' (by omega) hh hsz ?_
    rw [bmpReadDetail_eq hf' _ _ (by omega), if_pos rfl]
    have c2 : ((w : Int) * 3 + ((w % 4 : Nat) : Int)) = ((w * 3 + w % 4 : Nat) : Int) := by push_cast; ring
    rw [c2, chkInt_ok (by omega) (by omega), Res.ok_bind, Int.toNat_natCast, ← hb]
    exact freadInto_cut (bmpHeader_length _ _ _) h54
  · unfold bmpFileRead
    rw [le32At_eq (by omega), le32At_eq (by omega), leAt_take _ _ _ _ (by omega), leAt_take _ _ _ _ (by omega),
      hf.w_eq, hf.h_eq]
    simp only [Res.ok_bind]
    rw [toInt32_of_lt (by omega), toInt32_of_lt hh, if_neg (by omega), if_neg (by omega)]
    have e1 : (w : Int).toNat = w := by omega
    have e2 : (h : Int).natAbs = h := by omega
    rw [e1, e2, fillingBytes_nat (by omega)]
    rw [← hb] at hsz ⊢
    rw [if_neg (by omega), if_neg (by omega)]
    unfold bmpReadDetail
    rw [if_pos (by omega), Res.ok_bind, if_neg (by omega), show k - 54 = 0 by omega]
    simp [worn]

theorem vget_cases {β : Type} (l : List β) (i : Nat) : (∃ a, vget l i = .ok a) ∨ vget l i = .ub := by
  unfold vget
  cases l[i]? with
  | some a => exact Or.inl ⟨a, rfl⟩
  | none => exact Or.inr rfl

theorem le32At_cases (l : List Byte) (k : Nat) : (∃ a, le32At l k = .ok a) ∨ le32At l k = .ub := by
  unfold le32At
  rcases vget_cases l k with ⟨a, e⟩ | e <;> rw [e]
  · rcases vget_cases l (k + 1) with ⟨b, e⟩ | e <;> rw [e]
    · rcases vget_cases l (k + 2) with ⟨c, e⟩ | e <;> rw [e]
      · rcases vget_cases l (k + 3) with ⟨d, e⟩ | e <;> rw [e]
        · exact Or.inl ⟨_, rfl⟩
        · exact Or.inr rfl
      · exact Or.inr rfl
    · exact Or.inr rfl
  · exact Or.inr rfl

theorem le32At_short {l : List Byte} {k : Nat} (h : l.length < k + 4) : le32At l k = .ub := by
  have h3 : vget l (k + 3) = .ub := by unfold vget; rw [List.getElem?_eq_none (by omega)]
  unfold le32At
  rw [h3]
  rcases vget_cases l k with ⟨a, e⟩ | e <;> rw [e]
  · rcases vget_cases l (k + 1) with ⟨b, e⟩ | e <;> rw [e]
    · rcases vget_cases l (k + 2) with ⟨c, e⟩ | e <;> rw [e] <;> rfl
    · rfl
  · rfl

/-- A file without the height field. -/
theorem bmpFileRead_short {file : List Byte} (h : file.length < 26) : bmpFileRead file = .ub := by
  unfold bmpFileRead
  rw [le32At_short (k := 22) (by omega)]
  rcases le32At_cases file 18 with ⟨a, e⟩ | e <;> rw [e] <;> rfl

/-! ### Reading a cut file of doubles -/

theorem length_flatMap_dblBytes (l : List (BitVec 64)) : (l.flatMap dblBytes).length = 8 * l.length := by
  induction l with
  | nil => rfl
  | cons a l ih => rw [List.flatMap_cons, List.length_append, length_dblBytes, ih, List.length_cons]; omega

theorem take_flatMap_dblBytes (l : List (BitVec 64)) (n : Nat) :
    (l.flatMap dblBytes).take (8 * n) = (l.take n).flatMap dblBytes := by
  induction l generalizing n with
  | nil => simp
  | cons a l ih =>
    cases n with
    | zero => simp
    | succ n =>
      rw [List.flatMap_cons, List.take_succ_cons, List.flatMap_cons, ← ih n,
        show 8 * (n + 1) = (dblBytes a).length + 8 * n by rw [length_dblBytes]; omega,
        List.take_length_add_append]

/-- The numbers of which all bytes are there. -/
theorem readDoubles_cut {hdr : List Byte} (hh : hdr.length = 54) (buf : List (BitVec 64)) (k : Nat) :
    readDoubles ((hdr ++ buf.flatMap dblBytes).take k) 54 buf.length = buf.take ((k - 54) / 8) := by
  have e : (((hdr ++ buf.flatMap dblBytes).take k).drop 54).take (8 * buf.length) =
      (buf.flatMap dblBytes).take (k - 54) := by
    rw [List.take_append, hh]
    by_cases h54 : 54 ≤ k
    · rw [List.take_of_length_le (l := hdr) (by omega), List.drop_left' hh, List.take_take]
      by_cases h : k - 54 ≤ 8 * buf.length
      · rw [Nat.min_eq_right h]
      · rw [Nat.min_eq_left (by omega), List.take_of_length_le (i := k - 54) (by rw [length_flatMap_dblBytes]; omega),
          ← length_flatMap_dblBytes, List.take_length]
    · rw [show k - 54 = 0 by omega, List.take_zero, List.append_nil,
        List.drop_of_length_le (by simp; omega)]; simp
  have hl : ((buf.flatMap dblBytes).take (k - 54)).length / 8 = min ((k - 54) / 8) buf.length := by
    rw [List.length_take, length_flatMap_dblBytes]; omega
  have full := readDoubles_flatMap hdr buf
  unfold readDoubles at full ⊢
  have e0 : ((hdr ++ buf.flatMap dblBytes).drop hdr.length).take (8 * buf.length) = buf.flatMap dblBytes := by
    rw [List.drop_left, ← length_flatMap_dblBytes buf, List.take_length]
  simp only [e0, length_flatMap_dblBytes, Nat.mul_div_cancel_left _ (show 0 < 8 by decide)] at full
  simp only [e, hl]
  refine List.ext_getElem (by simp) fun i h1 h2 => ?_
  simp only [List.length_map, List.length_range] at h1
  have hi : i < buf.length := by omega
  have fi : dblOfBytes (((buf.flatMap dblBytes).drop (8 * i)).take 8) = buf[i] := by
    have := congrArg (fun l => l[i]?) full
    simp only [List.getElem?_map, List.getElem?_range hi, List.getElem?_eq_getElem hi, Option.map_some,
      Option.some.injEq] at this
    exact this
  simp only [List.getElem_map, List.getElem_range, List.getElem_take]
  rw [List.drop_take, List.take_take, Nat.min_eq_left (by omega), fi]

theorem dblRead_cut {fs : Files} {name : List Char} {ext : Bool} {w h n k : Nat} {buf : List (BitVec 64)}
    {f : Nat → Nat → BitVec 64}
    (hf : fs.content (pathOf name dbmpExt ext) = some ((bmpHeader n w h ++ buf.flatMap dblBytes).take k))
    (r : Raw1Shows buf w h (w % 8) f) (hw : w + w % 8 < 2 ^ 31) (hh : h < 2 ^ 31)
    (hsz : (w + w % 8) * h ≤ 2 ^ 31) (hwh : w * h < 2 ^ 31) (hk : 26 ≤ k) :
    dblRead fs name ext = pixFor (iterYX w h) (fun out x y => do
      let v ← vget (buf.take ((k - 54) / 8)) (y * w + x + y * (w % 8))
      out.set2 x y v) (Image.ofInts 0 [(w : Int), (h : Int)]) := by
  have hb := bmpHeader_file n w h (buf.flatMap dblBytes) (by omega) (by omega)
  have h54 := hb.header
  have hl : ((bmpHeader n w h ++ buf.flatMap dblBytes).take k).length ≥ 26 := by
    rw [List.length_take]; omega
  unfold dblRead
  rw [hf]
  simp only
  rw [le32At_eq (by omega), le32At_eq (by omega), leAt_take _ _ _ _ (by omega), leAt_take _ _ _ _ (by omega),
    hb.w_eq, hb.h_eq]
  simp only [Res.ok_bind]
  rw [toInt32_of_lt (by omega), toInt32_of_lt hh, if_neg (by omega), if_neg (by omega)]
  have c1 : ((w : Int) * h) = ((w * h : Nat) : Int) := by push_cast; ring
  rw [c1, fillingBytes_nat (by omega), chkInt_ok (by omega) (by omega), Res.ok_bind,
    chkInt_ok (by omega) (by omega), Res.ok_bind]
  simp only [Int.toNat_natCast]
  rw [← r.1, readDoubles_cut (bmpHeader_length _ _ _)]
  unfold pixFor
  refine loop_congr (fun p hp d => ?_) _
  obtain ⟨x, y⟩ := p
  obtain ⟨hx, hy⟩ : x < w ∧ y < h := mem_iterYX.1 hp
  have c2 : ((y : Int) * w + x) + y * ((w % 8 : Nat) : Int) = ((y * w + x + y * (w % 8) : Nat) : Int) := by
    push_cast; ring
  have hlt := raw1_lt (fb := w % 8) hx hy
  simp only
  rw [c2, chkInt_ok (by omega) (by omega), Res.ok_bind, Int.toNat_natCast]

theorem hsvRead_cut {fs : Files} {name : List Char} {ext : Bool} {w h n k : Nat} {buf : List (BitVec 64)}
    {f : Nat → Nat → Px3 (BitVec 64)}
    (hf : fs.content (pathOf name hsvExt ext) = some ((bmpHeader n w h ++ buf.flatMap dblBytes).take k))
    (r : RawShows buf w h (w % 8) f) (hw : w * 3 + w % 8 < 2 ^ 31) (hh : h < 2 ^ 31)
    (hsz : (w * 3 + w % 8) * h ≤ 2 ^ 31) (hwh : w * h * 3 < 2 ^ 31) (hk : 26 ≤ k) :
    hsvRead fs name ext = pixFor (iterYX w h) (fun out x y => do
      let p ← getPx3 w (w % 8) (buf.take ((k - 54) / 8)) x y
      out.set2 x y p) (Image.ofInts ⟨0, 0, 0⟩ [(w : Int), (h : Int)]) := by
  have hb := bmpHeader_file n w h (buf.flatMap dblBytes) (by omega) (by omega)
  have h54 := hb.header
  have hl : ((bmpHeader n w h ++ buf.flatMap dblBytes).take k).length ≥ 26 := by
    rw [List.length_take]; omega
  unfold hsvRead
  rw [hf]
  simp only
  rw [le32At_eq (by omega), le32At_eq (by omega), leAt_take _ _ _ _ (by omega), leAt_take _ _ _ _ (by omega),
    hb.w_eq, hb.h_eq]
  simp only [Res.ok_bind]
  rw [toInt32_of_lt (by omega), toInt32_of_lt hh, if_neg (by omega), if_neg (by omega)]
  have c1 : ((w : Int) * h * 3) = ((w * h * 3 : Nat) : Int) := by push_cast; ring
  rw [c1, fillingBytes_nat (by omega), chkInt_ok (by omega) (by omega), Res.ok_bind,
    chkInt_ok (by omega) (by omega), Res.ok_bind]
  simp only [Int.toNat_natCast]
  rw [← r.1, readDoubles_cut (bmpHeader_length _ _ _)]
  unfold pixFor
  refine loop_congr (fun p hp d => ?_) _
  obtain ⟨x, y⟩ := p
  obtain ⟨hx, hy⟩ : x < w ∧ y < h := mem_iterYX.1 hp
  have c2 : 3 * ((y : Int) * w + x) + y * ((w % 8 : Nat) : Int) + 2 =
      ((rawIdx w (w % 8) x y 0 : Nat) : Int) := by
    unfold rawIdx; push_cast; ring
  have hlt := rawIdx_lt (fb := w % 8) (c := 0) hx hy
  simp only
  rw [c2, chkInt_ok (by omega) (by omega), Res.ok_bind]

/-- A loop in which one iteration is undefined behaviour, the others are undefined or succeed. -/
theorem loop_ub {σ β : Type} (body : σ → β → Res σ) (l : List β) (b : β) (hb : b ∈ l) (P : σ → Prop)
    (hbad : ∀ s, body s b = .ub) (hall : ∀ s c, P s → c ∈ l → body s c = .ub ∨ ∃ s', body s c = .ok s' ∧ P s')
    (s : σ) (hs : P s) : loop body l s = .ub := by
  induction l generalizing s with
  | nil => simp at hb
  | cons c l ih =>
    rw [loop]
    rcases hall s c hs (by simp) with e | ⟨s', e, hs'⟩
    · rw [e]
    · rw [e]
      simp only
      rcases List.mem_cons.1 hb with rfl | hb
      · rw [hbad] at e; cases e
      · exact ih hb (fun s c h hc => hall s c h (by simp [hc])) s' hs'

end TinyDIP.Crash
