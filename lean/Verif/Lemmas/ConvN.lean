import Verif.Lemmas.Conv
import Mathlib.Algebra.BigOperators.Group.List.Basic
import Mathlib.Data.List.Nodup
import Mathlib.Algebra.Order.BigOperators.GroupWithZero.List

/-! # N-dimensional convolution -/

namespace TinyDIP

open Image

variable {α : Type}

/-! ### coordinate tuples -/

theorem mem_allIdx {sizes idx : List Nat} : idx ∈ allIdx sizes ↔ InBounds sizes idx := by
  unfold InBounds
  induction sizes generalizing idx with
  | nil => simp [allIdx]
  | cons s ss ih =>
    simp only [allIdx, List.mem_flatMap, List.mem_map, List.mem_range]
    constructor
    · rintro ⟨t, ht, i, hi, rfl⟩
      exact .cons hi (ih.mp ht)
    · intro h
      cases h with
      | cons hi ht => exact ⟨_, ih.mpr ht, _, hi, rfl⟩

theorem nodup_allIdx (sizes : List Nat) : (allIdx sizes).Nodup := by
  induction sizes with
  | nil => simp [allIdx]
  | cons s ss ih =>
    rw [allIdx, List.nodup_flatMap]
    refine ⟨fun t _ => ?_, ?_⟩
    · exact List.nodup_range.map (fun a b h => by simpa using h)
    · refine ih.imp (fun {a b} hab => ?_)
      simp only [Function.onFun, List.Disjoint, List.mem_map]
      rintro x ⟨i, _, rfl⟩ ⟨j, _, h⟩
      simp at h
      exact hab h.2.symm

theorem allIdx_append (ss : List Nat) (s : Nat) :
    ∀ f : List Nat → List Nat, (allIdx (ss ++ [s])).map f =
      (List.range s).flatMap fun i => (allIdx ss).map fun t => f (t ++ [i]) := by
  induction ss with
  | nil =>
    intro f
    simp only [List.nil_append, allIdx, List.flatMap_cons, List.flatMap_nil, List.append_nil,
      List.map_map, List.map_cons, List.map_nil]
    rw [← List.map_eq_flatMap]; rfl
  | cons a ss ih =>
    intro f
    have h1 : allIdx (ss ++ [s]) = (List.range s).flatMap fun i => (allIdx ss).map fun t => t ++ [i] := by
      have := ih id
      simpa using this
    simp only [List.cons_append, allIdx, h1, List.flatMap_assoc, List.map_flatMap, List.flatMap_map,
      List.map_map]
    rfl

theorem sum_allIdx_append [AddCommMonoid α] (ss : List Nat) (s : Nat) (f : List Nat → α) :
    ((allIdx (ss ++ [s])).map f).sum =
      (Finset.range s).sum fun i => ((allIdx ss).map fun t => f (t ++ [i])).sum := by
  have h1 : allIdx (ss ++ [s]) = (List.range s).flatMap fun i => (allIdx ss).map fun t => t ++ [i] := by
    have := allIdx_append ss s id
    simpa using this
  rw [h1, List.map_flatMap]
  induction s with
  | zero => simp
  | succ n ih =>
    rw [List.range_succ, List.flatMap_append, List.sum_append, Finset.sum_range_succ]
    congr 1
    · have h2 : allIdx (ss ++ [n]) = (List.range n).flatMap fun i => (allIdx ss).map fun t => t ++ [i] := by
        have := allIdx_append ss n id
        simpa using this
      exact ih h2
    · simp [List.map_map, Function.comp_def]

theorem rowMajor_append : ∀ (ss is : List Nat) (s i : Nat), is.length = ss.length →
    rowMajor (ss ++ [s]) (is ++ [i]) = rowMajor ss is + ss.prod * i
  | [], [], s, i, _ => by simp [rowMajor]
  | a :: ss, b :: is, s, i, h => by
    simp only [List.cons_append, rowMajor, List.prod_cons]
    rw [rowMajor_append ss is s i (by simpa using h)]
    ring

/-! ### the recursion as a sum -/

/-- Contribution of the recursive calls on the first `n` dimensions to output element `p`. -/
def convS [CommRing α] (I K O : List Nat) (img ker : Nat → α) : (n oi i2 i3 p : Nat) → α
  | 0, oi, i2, i3, p => if oi = p then img i2 * ker i3 else 0
  | n + 1, oi, i2, i3, p =>
    (Finset.range (K.getD n 0)).sum fun i => (Finset.range (I.getD n 0)).sum fun j =>
      convS I K O img ker n (oi + (O.take n).prod * (i + j)) (i2 + (I.take n).prod * j)
        (i3 + (K.take n).prod * i) p

theorem forUp_addFn [CommRing α] {N : Nat} {sz : List Nat} (g : Nat → Nat → α)
    (body : Image α → Nat → Res (Image α)) (n : Nat)
    (h : ∀ k, k < n → ∀ F : Nat → α, body ⟨sz, (List.range N).map F⟩ k =
      .ok ⟨sz, (List.range N).map fun p => F p + g k p⟩) (F : Nat → α) :
    forUp n body ⟨sz, (List.range N).map F⟩ =
      .ok ⟨sz, (List.range N).map fun p => F p + (Finset.range n).sum fun k => g k p⟩ := by
  obtain ⟨s', e, hs⟩ := forUp_inv (n := n) (body := body)
    (P := fun k s => s = ⟨sz, (List.range N).map fun p => F p + (Finset.range k).sum fun k => g k p⟩)
    (by
      rintro k s hk rfl
      refine ⟨_, h k hk _, ?_⟩
      congr 2
      funext p
      rw [Finset.sum_range_succ, add_assoc])
    ⟨sz, (List.range N).map F⟩ (by simp)
  rw [e, hs]

theorem take_prod_succ (l : List Nat) (n : Nat) (h : n < l.length) :
    (l.take (n + 1)).prod = (l.take n).prod * l.getD n 0 := by
  rw [List.take_succ_eq_append_getElem h, List.prod_append]
  simp [h]

theorem stride_eq {im : Image α} (n : Nat) (h : (im.size.take n).prod < 2 ^ 64) :
    im.stride n = (im.size.take n).prod := by
  have := foldl_wmul (im.size.take n) 1
  rw [Nat.mod_eq_of_lt (show 1 < W by decide)] at this
  rw [Image.stride, this, Nat.one_mul]
  exact Nat.mod_eq_of_lt h

theorem conv_offset {oi A o k P : Nat} (ho : oi + A * o ≤ P) (hk : k < o) (hP : P < 2 ^ 64) :
    wadd oi (wmul k A) = oi + A * k ∧ oi + A * k + A ≤ P := by
  have h1 : A * k + A ≤ A * o := by
    calc A * k + A = A * (k + 1) := by ring
      _ ≤ A * o := Nat.mul_le_mul_left _ hk
  have h2 : wmul k A = A * k := by
    rw [Nat.mul_comm A k, wmul_of_lt]
    rw [Nat.mul_comm]; omega
  refine ⟨?_, by omega⟩
  rw [h2, wadd_of_lt (by omega)]

theorem convDetail_eq [CommRing α] {image kernel : Image α} {I K O : List Nat}
    (hI : image.size = I) (hK : kernel.size = K) (hlen : K.length = I.length)
    (hlenO : O.length = I.length)
    (hO : ∀ n, n < I.length → O.getD n 0 + 1 = I.getD n 0 + K.getD n 0)
    (hO64 : ∀ n, n < I.length → O.getD n 0 < 2 ^ 64)
    (hdI : image.data.length = I.prod) (hdK : kernel.data.length = K.prod)
    (hfI : I.prod < 2 ^ 64) (hfK : K.prod < 2 ^ 64) (hfO : O.prod < 2 ^ 64)
    (hsI : ∀ n, (I.take n).prod < 2 ^ 64) (hsK : ∀ n, (K.take n).prod < 2 ^ 64)
    (hsO : ∀ n, (O.take n).prod < 2 ^ 64)
    (L : Nat) (hL : L < I.length) (oi i2 i3 : Nat)
    (ho : oi + (O.take (L + 1)).prod ≤ O.prod) (h2 : i2 + (I.take (L + 1)).prod ≤ I.prod)
    (h3 : i3 + (K.take (L + 1)).prod ≤ K.prod) (F : Nat → α) :
    convDetail image kernel L oi i2 i3 ⟨O, (List.range O.prod).map F⟩ =
      .ok ⟨O, (List.range O.prod).map fun p => F p +
        convS I K O (fun q => image.data.getD q 0) (fun q => kernel.data.getD q 0) (L + 1) oi i2 i3 p⟩ := by
  induction L generalizing oi i2 i3 F with
  | zero =>
    unfold convDetail
    have es : sizeAt kernel 0 = .ok (K.getD 0 0) := by
      unfold sizeAt; rw [hK, vget_eq_ok (by omega)]; simp [show 0 < K.length by omega]
    have ei : sizeAt image 0 = .ok (I.getD 0 0) := by
      unfold sizeAt; rw [hI, vget_eq_ok (by omega)]; simp [show 0 < I.length by omega]
    rw [take_prod_succ _ _ (by omega)] at ho h2 h3
    simp only [es, ei, Res.ok_bind]
    refine forUp_addFn (fun i p => (Finset.range (I.getD 0 0)).sum fun j =>
      convS I K O (fun q => image.data.getD q 0) (fun q => kernel.data.getD q 0) 0
        (oi + (O.take 0).prod * (i + j)) (i2 + (I.take 0).prod * j) (i3 + (K.take 0).prod * i) p)
      _ _ ?_ F
    intro i hi F
    refine forUp_addFn _ _ _ ?_ F
    intro j hj F
    have hij : i + j < O.getD 0 0 := by have := hO 0 hL; omega
    have eo := conv_offset ho hij hfO
    have e2 := conv_offset h2 hj hfI
    have e3 := conv_offset h3 hi hfK
    have wij : wadd i j = i + j := wadd_of_lt (by have := hO64 0 hL; omega)
    rw [stride_eq 0 (by simp), stride_eq 0 (by simp), stride_eq 0 (by simp), hI, hK, wij, eo.1, e2.1, e3.1]
    have l1 : 0 < (O.take 0).prod := by simp
    have l2 : 0 < (I.take 0).prod := by simp
    have l3 : 0 < (K.take 0).prod := by simp
    have b1 := eo.2
    have b2 := e2.2
    have b3 := e3.2
    generalize oi + (O.take 0).prod * (i + j) = P at *
    generalize i2 + (I.take 0).prod * j = Q at *
    generalize i3 + (K.take 0).prod * i = R at *
    unfold Image.get Image.setIndex Image.count
    rw [vget_eq_ok (show P < ((List.range O.prod).map F).length by simp; omega),
      vget_eq_ok (show Q < image.data.length by omega), vget_eq_ok (show R < kernel.data.length by omega)]
    simp only [Res.ok_bind]
    rw [prodW_of_lt hfO, if_neg (by omega), vset_eq_ok _ (by simp; omega)]
    simp only [Res.ok_bind]
    congr 2
    apply List.ext_getElem?
    intro q
    rw [List.getElem?_set]
    by_cases hq : q < O.prod
    · simp only [List.length_map, List.length_range, List.getElem?_map, List.getElem?_range hq,
        Option.map_some, List.getElem_map, List.getElem_range, convS]
      by_cases hpq : P = q
      · subst hpq
        simp [hq, show Q < image.data.length by omega, show R < kernel.data.length by omega]
      · simp [hpq]
    · rw [if_neg (by omega), List.getElem?_eq_none (by simp; omega),
        List.getElem?_eq_none (by simp; omega)]
  | succ L ih =>
    unfold convDetail
    have es : sizeAt kernel (L + 1) = .ok (K.getD (L + 1) 0) := by
      unfold sizeAt; rw [hK, vget_eq_ok (by omega)]; simp [show L + 1 < K.length by omega]
    have ei : sizeAt image (L + 1) = .ok (I.getD (L + 1) 0) := by
      unfold sizeAt; rw [hI, vget_eq_ok (by omega)]; simp [show L + 1 < I.length by omega]
    rw [take_prod_succ _ _ (by omega)] at ho h2 h3
    simp only [es, ei, Res.ok_bind]
    refine forUp_addFn (fun i p => (Finset.range (I.getD (L + 1) 0)).sum fun j =>
      convS I K O (fun q => image.data.getD q 0) (fun q => kernel.data.getD q 0) (L + 1)
        (oi + (O.take (L + 1)).prod * (i + j)) (i2 + (I.take (L + 1)).prod * j)
        (i3 + (K.take (L + 1)).prod * i) p) _ _ ?_ F
    intro i hi F
    refine forUp_addFn _ _ _ ?_ F
    intro j hj F
    have hij : i + j < O.getD (L + 1) 0 := by have := hO (L + 1) hL; omega
    have eo := conv_offset ho hij hfO
    have e2 := conv_offset h2 hj hfI
    have e3 := conv_offset h3 hi hfK
    have wij : wadd i j = i + j := wadd_of_lt (by have := hO64 (L + 1) hL; omega)
    rw [stride_eq (L + 1) (hsO _), stride_eq (L + 1) (by rw [hI]; exact hsI _),
      stride_eq (L + 1) (by rw [hK]; exact hsK _), hI, hK, wij, eo.1, e2.1, e3.1]
    exact ih (by omega) _ _ _ eo.2 e2.2 e3.2 F

/-! ### the sum as a convolution -/

theorem convS_eq [CommRing α] (I K O : List Nat) (img ker : Nat → α) (hlen : K.length = I.length)
    (hlenO : O.length = I.length) (n : Nat) (hn : n ≤ I.length) (oi i2 i3 p : Nat) :
    convS I K O img ker n oi i2 i3 p =
      ((allIdx (K.take n)).map fun b => ((allIdx (I.take n)).map fun a =>
        if oi + rowMajor (O.take n) (List.zipWith (· + ·) a b) = p then
          img (i2 + rowMajor (I.take n) a) * ker (i3 + rowMajor (K.take n) b) else 0).sum).sum := by
  induction n generalizing oi i2 i3 with
  | zero => simp [convS, allIdx, rowMajor]
  | succ n ih =>
    have tI : I.take (n + 1) = I.take n ++ [I.getD n 0] := by
      rw [List.take_succ_eq_append_getElem (by omega)]; simp [show n < I.length by omega]
    have tK : K.take (n + 1) = K.take n ++ [K.getD n 0] := by
      rw [List.take_succ_eq_append_getElem (by omega)]; simp [show n < K.length by omega]
    have tO : O.take (n + 1) = O.take n ++ [O.getD n 0] := by
      rw [List.take_succ_eq_append_getElem (by omega)]; simp [show n < O.length by omega]
    rw [convS, tI, tK, tO, sum_allIdx_append]
    apply Finset.sum_congr rfl
    intro i _
    have : ∀ t ∈ allIdx (K.take n), (fun t => ((allIdx (I.take n ++ [I.getD n 0])).map fun a =>
        if oi + rowMajor (O.take n ++ [O.getD n 0]) (List.zipWith (· + ·) a (t ++ [i])) = p then
          img (i2 + rowMajor (I.take n ++ [I.getD n 0]) a) *
            ker (i3 + rowMajor (K.take n ++ [K.getD n 0]) (t ++ [i])) else 0).sum) t =
        (Finset.range (I.getD n 0)).sum fun j => ((allIdx (I.take n)).map fun a =>
          if oi + (O.take n).prod * (i + j) + rowMajor (O.take n) (List.zipWith (· + ·) a t) = p then
          img (i2 + (I.take n).prod * j + rowMajor (I.take n) a) *
            ker (i3 + (K.take n).prod * i + rowMajor (K.take n) t) else 0).sum := by
      intro t ht
      have lt := (mem_allIdx.mp ht).length_eq
      simp only [List.length_take] at lt
      beta_reduce
      rw [sum_allIdx_append]
      apply Finset.sum_congr rfl
      intro j _
      congr 1
      apply List.map_congr_left
      intro a ha
      have la := (mem_allIdx.mp ha).length_eq
      simp only [List.length_take] at la
      have z1 : List.zipWith (· + ·) (a ++ [j]) (t ++ [i]) = List.zipWith (· + ·) a t ++ [j + i] := by
        rw [List.zipWith_append (by omega)]; rfl
      have z2 : rowMajor (O.take n ++ [O.getD n 0]) (List.zipWith (· + ·) (a ++ [j]) (t ++ [i])) =
          rowMajor (O.take n) (List.zipWith (· + ·) a t) + (O.take n).prod * (i + j) := by
        rw [z1, rowMajor_append _ _ _ _ (by simp only [List.length_take, List.length_zipWith]; omega),
          Nat.add_comm j i]
      have c1 : ∀ x A B : Nat, x + (A + B) = x + B + A := fun x A B => by omega
      rw [z2, rowMajor_append _ _ _ _ (by simp only [List.length_take]; omega),
        rowMajor_append _ _ _ _ (by simp only [List.length_take]; omega)]
      rw [c1 oi, c1 i2, c1 i3]
    rw [List.map_congr_left this]
    have sc : ∀ (l : List (List Nat)) (m : Nat) (g : List Nat → Nat → α),
        (l.map fun t => (Finset.range m).sum fun j => g t j).sum =
          (Finset.range m).sum fun j => (l.map fun t => g t j).sum := by
      intro l m g
      induction l with
      | nil => simp
      | cons a l ihl => simp [ihl, Finset.sum_add_distrib]
    rw [sc]
    apply Finset.sum_congr rfl
    intro j _
    rw [ih (by omega)]

theorem inBounds_zipAdd {I K O a b : List Nat} (ha : InBounds I a) (hb : InBounds K b)
    (hO : O = List.zipWith (fun l r => l + r - 1) I K) (hlen : K.length = I.length) :
    InBounds O (List.zipWith (· + ·) a b) := by
  unfold InBounds at *
  subst hO
  induction ha generalizing K b with
  | nil => 
    cases hb with
    | nil => exact .nil
    | cons _ _ => simp at hlen
  | cons h _ ih =>
    cases hb with
    | nil => simp at hlen
    | cons h' ht =>
      exact .cons (by beta_reduce at *; omega) (ih ht (by simpa using hlen))

theorem idxSub_some {ks idx a b : List Nat} (h : idxSub ks idx a = some b) :
    InBounds ks b ∧ List.zipWith (· + ·) a b = idx ∧ a.length = ks.length := by
  unfold InBounds
  induction ks generalizing idx a b with
  | nil =>
    cases idx <;> cases a <;> simp [idxSub] at h
    subst h; exact ⟨.nil, rfl, rfl⟩
  | cons s ss ih =>
    cases idx with
    | nil => cases a <;> simp [idxSub] at h
    | cons i is =>
      cases a with
      | nil => simp [idxSub] at h
      | cons x xs =>
        simp only [idxSub] at h
        split at h
        · rename_i hc
          rw [Option.map_eq_some_iff] at h
          obtain ⟨t, ht, rfl⟩ := h
          obtain ⟨h1, h2, h3⟩ := ih ht
          refine ⟨.cons hc.2 h1, ?_, by simp [h3]⟩
          simp only [List.zipWith_cons_cons, h2]
          congr 1
          omega
        · simp at h

theorem idxSub_of_add {ks a b : List Nat} (hb : InBounds ks b) (hl : a.length = ks.length) :
    idxSub ks (List.zipWith (· + ·) a b) a = some b := by
  unfold InBounds at hb
  induction hb generalizing a with
  | nil => cases a <;> simp_all [idxSub]
  | cons h _ ih =>
    cases a with
    | nil => simp at hl
    | cons x xs =>
      simp only [List.zipWith_cons_cons, idxSub]
      rw [ih (by simpa using hl), if_pos (by omega)]
      simp

theorem sum_single {β : Type} [DecidableEq β] [AddCommMonoid α] (l : List β) (hn : l.Nodup) (b : β)
    (g : β → α) : (l.map fun x => if x = b then g x else 0).sum = if b ∈ l then g b else 0 := by
  induction l with
  | nil => simp
  | cons x l ih =>
    simp only [List.map_cons, List.sum_cons, ih hn.tail]
    rw [List.nodup_cons] at hn
    by_cases hx : x = b
    · subst hx
      simp [hn.1]
    · simp [hx, Ne.symm hx]

theorem convS_conv [CommRing α] {I K O : List Nat} {image kernel : Image α}
    {fi fk : List Nat → α} (si : image.ShowsN I fi) (sk : kernel.ShowsN K fk)
    (hlen : K.length = I.length) (hO : O = List.zipWith (fun l r => l + r - 1) I K)
    (idx : List Nat) (hidx : InBounds O idx) :
    convS I K O (fun q => image.data.getD q 0) (fun q => kernel.data.getD q 0) I.length 0 0 0
      (rowMajor O idx) = convNAt I fi K fk idx := by
  have lenO : O.length = I.length := by simp [hO, hlen]
  have rd : ∀ {im : Image α} {S : List Nat} {f : List Nat → α}, im.ShowsN S f → ∀ a, InBounds S a →
      im.data.getD (rowMajor S a) 0 = f a := by
    intro im S f s a ha
    have h1 := s.px a ha
    have ha' : InBounds im.size a := by rw [s.size]; exact ha
    rw [s.wf.at' ha'] at h1
    injection h1 with h1
    have e : rowMajor S a = rowMajor im.size a := by rw [s.size]
    rw [← h1, List.getD_eq_getElem?_getD, e, List.getElem?_eq_getElem (s.wf.rowMajor_lt ha')]
    rfl
  rw [convS_eq I K O _ _ hlen lenO _ (Nat.le_refl _)]
  have tK : K.take I.length = K := List.take_of_length_le (by omega)
  have tO : O.take I.length = O := List.take_of_length_le (by omega)
  rw [tK, tO, List.take_length]
  have sc : ∀ (l m : List (List Nat)) (g : List Nat → List Nat → α),
      (l.map fun t => (m.map fun j => g t j).sum).sum =
        (m.map fun j => (l.map fun t => g t j).sum).sum := by
    intro l m g
    induction l with
    | nil => simp
    | cons a l ihl => simp [ihl, List.sum_map_add]
  rw [sc]
  unfold convNAt
  congr 1
  apply List.map_congr_left
  intro a ha
  have ha := mem_allIdx.mp ha
  have key : ∀ b ∈ allIdx K, (if 0 + rowMajor O (List.zipWith (· + ·) a b) = rowMajor O idx then
      image.data.getD (0 + rowMajor I a) 0 * kernel.data.getD (0 + rowMajor K b) 0 else 0) =
      (match idxSub K idx a with | some b' => if b = b' then fi a * fk b else 0 | none => 0) := by
    intro b hb
    have hb := mem_allIdx.mp hb
    simp only [Nat.zero_add, rd si a ha, rd sk b hb]
    have hin := inBounds_zipAdd ha hb hO hlen
    have la : a.length = K.length := by rw [ha.length_eq, hlen]
    by_cases he : List.zipWith (· + ·) a b = idx
    · rw [if_pos (by rw [he]), ← he, idxSub_of_add hb la]
      simp
    · rw [if_neg (fun h => he (rowMajor_inj hin hidx h))]
      cases hs : idxSub K idx a with
      | none => rfl
      | some b' =>
        have := (idxSub_some hs).2.1
        simp only
        rw [if_neg]
        rintro rfl
        exact he this
  rw [List.map_congr_left key]
  cases hs : idxSub K idx a with
  | none => simp
  | some b' =>
    simp only
    rw [sum_single _ (nodup_allIdx K) b' (fun b => fi a * fk b), if_pos (mem_allIdx.mpr (idxSub_some hs).1)]

theorem getD_le_prod {l : List Nat} (hp : ∀ s ∈ l, 0 < s) (n : Nat) : l.getD n 0 ≤ l.prod := by
  induction l generalizing n with
  | nil => simp
  | cons a l ih =>
    have hl : ∀ s ∈ l, 0 < s := fun s hs => hp s (by simp [hs])
    have ha := hp a (by simp)
    have hpos : 0 < l.prod := List.prod_pos hl
    rw [List.prod_cons]
    cases n with
    | zero => simpa using Nat.le_mul_of_pos_right a hpos
    | succ n => 
      simp only [List.getD_cons_succ]
      exact (ih hl n).trans (Nat.le_mul_of_pos_left _ ha)

theorem take_prod_le {l : List Nat} (hp : ∀ s ∈ l, 0 < s) (n : Nat) : (l.take n).prod ≤ l.prod := by
  have : l.prod = (l.take n).prod * (l.drop n).prod := by
    rw [← List.prod_append, List.take_append_drop]
  rw [this]
  exact Nat.le_mul_of_pos_right _ (List.prod_pos fun s hs => hp s (List.mem_of_mem_drop hs))

theorem convolution_full [CommRing α] {image kernel : Image α} {I K : List Nat}
    {fi fk : List Nat → α} (si : image.ShowsN I fi) (sk : kernel.ShowsN K fk)
    (hlen : K.length = I.length) (hne : I ≠ []) (hdim : I.length < 2 ^ 64) (hI : ∀ s ∈ I, 0 < s) (hK : ∀ s ∈ K, 0 < s)
    (hsum : ∀ s ∈ List.zipWith (· + ·) I K, s < 2 ^ 64)
    (hf : (List.zipWith (fun l r => l + r - 1) I K).prod < 2 ^ 64) :
    ∃ out, convolution image kernel false = .ok out ∧
      out.ShowsN (List.zipWith (fun l r => l + r - 1) I K) (convNAt I fi K fk) ∧
      convolution image kernel true = subimage image 0 I (I.map (· / 2)) 0 := by
  set O := List.zipWith (fun l r => l + r - 1) I K with hO
  have hOW : List.zipWith (fun l r => wsub (wadd l r) 1) I K = O := by
    rw [hO]
    clear_value O
    clear hf hO si sk hdim
    induction I generalizing K with
    | nil => simp
    | cons a I ih =>
      cases K with
      | nil => simp
      | cons b K =>
        simp only [List.zipWith_cons_cons]
        have h1 : a + b < 2 ^ 64 := hsum _ (by simp)
        have ha : 0 < a := hI a (by simp)
        rw [wadd_of_lt h1, wsub_of_le (by omega) h1]
        refine congrArg (List.cons (a + b - 1)) ?_
        by_cases hI' : I = []
        · subst hI'; simp
        · exact ih (by simpa using hlen) hI' (fun s hs => hI s (by simp [hs]))
            (fun s hs => hK s (by simp [hs])) (fun s hs => hsum s (by simp [hs]))
  have lenO : O.length = I.length := by simp [hO, hlen]
  have posI : 0 < I.length := List.length_pos_of_ne_nil hne
  have hOn : ∀ n, n < I.length → O.getD n 0 + 1 = I.getD n 0 + K.getD n 0 := by
    intro n hn
    have h1 : 0 < I[n] := hI _ (List.getElem_mem hn)
    simp only [hO, List.getD_eq_getElem?_getD, List.getElem?_zipWith, List.getElem?_eq_getElem hn,
      List.getElem?_eq_getElem (show n < K.length by omega), Option.getD_some]
    omega
  have hOpos : ∀ s ∈ O, 0 < s := by
    intro s hs
    obtain ⟨n, hn, rfl⟩ := List.getElem_of_mem hs
    have h1 : 0 < I[n]'(by omega) := hI _ (List.getElem_mem _)
    have h2 : 0 < K[n]'(by omega) := hK _ (List.getElem_mem _)
    simp only [hO, List.getElem_zipWith]
    omega
  have run : ∃ out, convDetail image kernel (wsub image.size.length 1) 0 0 0 (Image.ofSizes 0 O) = .ok out ∧
      out.ShowsN O (convNAt I fi K fk) := by
    have e1 : wsub image.size.length 1 = I.length - 1 := by
      rw [si.size]
      exact wsub_of_le posI hdim
    have e2 : Image.ofSizes (0 : α) O = ⟨O, (List.range O.prod).map fun _ => 0⟩ := by
      rw [Image.ofSizes, prodW_of_lt hf, List.map_const', List.length_range]
    have wfI := si.wf
    have wfK := sk.wf
    have fI : I.prod < 2 ^ 64 := by have := wfI.fits; rwa [si.size] at this
    have fK : K.prod < 2 ^ 64 := by have := wfK.fits; rwa [sk.size] at this
    have h := convDetail_eq (image := image) (kernel := kernel) si.size sk.size hlen lenO hOn
      (fun n hn => lt_of_le_of_lt (getD_le_prod hOpos n) hf)
      (by have := wfI.len; rwa [si.size] at this) (by have := wfK.len; rwa [sk.size] at this)
      fI fK hf (fun n => lt_of_le_of_lt (take_prod_le hI n) fI)
      (fun n => lt_of_le_of_lt (take_prod_le hK n) fK) (fun n => lt_of_le_of_lt (take_prod_le hOpos n) hf)
      (I.length - 1) (by omega) 0 0 0
      (by rw [Nat.zero_add]; exact take_prod_le hOpos _) (by rw [Nat.zero_add]; exact take_prod_le hI _)
      (by rw [Nat.zero_add]; exact take_prod_le hK _) (fun _ => 0)
    rw [e1, e2, h]
    refine ⟨_, rfl, ?_⟩
    rw [show I.length - 1 + 1 = I.length by omega]
    have wfo : (⟨O, (List.range O.prod).map fun p => 0 +
        convS I K O (fun q => image.data.getD q 0) (fun q => kernel.data.getD q 0) I.length 0 0 0 p⟩ :
          Image α).WF :=
      ⟨by simp, hf, fun s hs => by
        obtain ⟨n, hn, rfl⟩ := List.getElem_of_mem hs
        have := getD_le_prod hOpos n
        simp [hn] at this
        exact lt_of_le_of_lt this hf⟩
    refine ⟨wfo, rfl, ?_⟩
    intro idx hidx
    rw [wfo.at' hidx]
    refine congrArg Res.ok ?_
    simp only [List.getElem_map, List.getElem_range, zero_add]
    exact convS_conv si sk hlen hO idx hidx
  obtain ⟨out, eo, so⟩ := run
  have hoz : O.isEmpty = false := by
    cases hOe : O with
    | nil => rw [hOe] at lenO; simp at lenO; omega
    | cons _ _ => rfl
  refine ⟨out, ?_, so, ?_⟩
  · unfold convolution
    simp only [si.size, sk.size, hOW, Image.ofSizeRange, hoz, Bool.false_eq_true, if_false, Res.ok_bind]
    rw [← si.size, eo]; rfl
  · unfold convolution
    simp only [si.size, sk.size, hOW, Image.ofSizeRange, hoz, Bool.false_eq_true, if_false, Res.ok_bind,
      centerLocation]
    rw [← si.size, eo]; rfl

end TinyDIP
