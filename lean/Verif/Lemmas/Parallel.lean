import Verif.Model.Parallel

/-!
# Lemmas about threads that share memory
-/

namespace TinyDIP.Par

variable {ι L : Type} {V : L → Type}

/-- Reads cells in `rd` or `wr` and writes cells in `wr` only. -/
def Confined (rd wr : L → Prop) : Prog L V → Prop
  | .stop => True
  | .load a k => (rd a ∨ wr a) ∧ ∀ v, Confined rd wr (k v)
  | .store a _ k => wr a ∧ Confined rd wr k

open Classical in
/-- What the thread leaves in memory when it runs alone. -/
noncomputable def run : Prog L V → ((a : L) → V a) → (a : L) → V a
  | .stop, m => m
  | .load a k, m => run (k (m a)) m
  | .store a v k, m => run k (Function.update m a v)

theorem run_congr {rd wr : L → Prop} {p : Prog L V} (hp : Confined rd wr p) {m m' : (a : L) → V a}
    (h : ∀ a, rd a ∨ wr a → m a = m' a) {a : L} (ha : wr a) : run p m a = run p m' a := by
  induction p generalizing m m' with
  | stop => exact h a (.inr ha)
  | load b k ih =>
    show run (k (m b)) m a = run (k (m' b)) m' a
    rw [h b hp.1]
    exact ih _ (hp.2 _) h
  | store b v k ih =>
    refine ih hp.2 fun c hc => ?_
    by_cases hcb : c = b
    · subst hcb; simp
    · simp [hcb, h c hc]

theorem run_frame {rd wr : L → Prop} {p : Prog L V} (hp : Confined rd wr p) (m : (a : L) → V a) {a : L}
    (ha : ¬ wr a) : run p m a = m a := by
  induction p generalizing m with
  | stop => rfl
  | load b k ih => exact ih _ (hp.2 _) m
  | store b v k ih =>
    show run k _ a = _
    rw [ih hp.2]
    have : a ≠ b := fun e => ha (e ▸ hp.1)
    simp [this]

/-- What holds throughout an execution of confined threads. -/
structure Inv (rd : L → Prop) (wr : ι → L → Prop) (P : ι → Prog L V) (m₀ : (a : L) → V a) (c : Conf ι L V) :
    Prop where
  conf : ∀ i, Confined rd (wr i) (c.prog i)
  keep : ∀ a, (∀ i, ¬ wr i a) → c.mem a = m₀ a
  goal : ∀ i a, wr i a → run (c.prog i) c.mem a = run (P i) m₀ a

variable {rd : L → Prop} {wr : ι → L → Prop} {P : ι → Prog L V} {m₀ : (a : L) → V a}

theorem Inv.start (hP : ∀ i, Confined rd (wr i) (P i)) : Inv rd wr P m₀ ⟨m₀, P⟩ :=
  ⟨hP, fun _ _ => rfl, fun _ _ _ => rfl⟩

theorem Inv.step (hd : ∀ i j a, wr i a → wr j a → i = j) (hr : ∀ i a, rd a → ¬ wr i a) {c c' : Conf ι L V}
    {e : Event ι L} (inv : Inv rd wr P m₀ c) (s : Step c e c') :
    Inv rd wr P m₀ c' ∧ (e.write = true → wr e.thread e.cell) ∧
      (e.write = false → rd e.cell ∨ wr e.thread e.cell) := by
  classical
  cases s with
  | load i a k h =>
    have hc := inv.conf i
    rw [h] at hc
    refine ⟨⟨fun j => ?_, inv.keep, fun j b hb => ?_⟩, by simp, fun _ => hc.1⟩
    · show Confined rd (wr j) (Function.update c.prog i _ j)
      by_cases hj : j = i
      · subst hj; simpa using hc.2 _
      · simpa [hj] using inv.conf j
    · show run (Function.update c.prog i _ j) c.mem b = _
      by_cases hj : j = i
      · subst hj
        have := inv.goal j b hb
        rw [h] at this
        simpa [run] using this
      · simpa [hj] using inv.goal j b hb
  | store i a v k h =>
    have hc := inv.conf i
    rw [h] at hc
    refine ⟨⟨fun j => ?_, fun b hb => ?_, fun j b hb => ?_⟩, fun _ => hc.1, by simp⟩
    · show Confined rd (wr j) (Function.update c.prog i _ j)
      by_cases hj : j = i
      · subst hj; simpa using hc.2
      · simpa [hj] using inv.conf j
    · show Function.update c.mem a v b = _
      have : b ≠ a := fun e => hb i (e ▸ hc.1)
      simpa [this] using inv.keep b hb
    · show run (Function.update c.prog i _ j) (Function.update c.mem a v) b = _
      by_cases hj : j = i
      · subst hj
        have := inv.goal j b hb
        rw [h] at this
        simp only [Function.update_self]
        rw [← this]
        show _ = run k _ b
        congr
      · simp only [ne_eq, hj, not_false_eq_true, Function.update_of_ne]
        rw [← inv.goal j b hb]
        refine (run_congr (inv.conf j) (fun x hx => ?_) hb)
        have : x ≠ a := by
          rintro rfl
          rcases hx with hx | hx
          · exact hr i _ hx hc.1
          · exact hj (hd j i _ hx hc.1)
        simp [this]

theorem Inv.exec (hd : ∀ i j a, wr i a → wr j a → i = j) (hr : ∀ i a, rd a → ¬ wr i a) {c c' : Conf ι L V}
    {t : List (Event ι L)} (inv : Inv rd wr P m₀ c) (x : Exec c t c') :
    Inv rd wr P m₀ c' ∧ ∀ e ∈ t, (e.write = true → wr e.thread e.cell) ∧
      (e.write = false → rd e.cell ∨ wr e.thread e.cell) := by
  induction x with
  | done c => exact ⟨inv, by simp⟩
  | more s _ ih =>
    obtain ⟨i1, e1⟩ := inv.step hd hr s
    obtain ⟨i2, e2⟩ := ih i1
    refine ⟨i2, fun e he => ?_⟩
    rcases List.mem_cons.1 he with rfl | he
    · exact e1
    · exact e2 e he

/-- Threads that write disjoint sets of cells and read, apart from these, only cells that no one writes: no
execution has a race, and when all threads have ended every written cell has the value its writer gives it when
it runs alone; the other cells are unchanged. -/
theorem confined_exec (hP : ∀ i, Confined rd (wr i) (P i)) (hd : ∀ i j a, wr i a → wr j a → i = j)
    (hr : ∀ i a, rd a → ¬ wr i a) {c' : Conf ι L V} {t : List (Event ι L)} (x : Exec ⟨m₀, P⟩ t c') :
    ¬ Race t ∧ (∀ e ∈ t, (e.write = true → wr e.thread e.cell) ∧
      (e.write = false → rd e.cell ∨ wr e.thread e.cell)) ∧
    (∀ a, (∀ i, ¬ wr i a) → c'.mem a = m₀ a) ∧
    (Finished c' → ∀ i a, wr i a → c'.mem a = run (P i) m₀ a) := by
  obtain ⟨i1, e1⟩ := (Inv.start (m₀ := m₀) hP).exec hd hr x
  refine ⟨?_, e1, i1.keep, fun hf i a ha => ?_⟩
  · rintro ⟨e, he, e', he', hne, hcell, hw⟩
    have acc : ∀ e ∈ t, rd e.cell ∨ wr e.thread e.cell := fun e he => by
      cases hb : e.write with
      | true => exact .inr ((e1 e he).1 hb)
      | false => exact (e1 e he).2 hb
    rcases hw with hw | hw
    · have h1 := (e1 e he).1 hw
      rcases acc e' he' with h2 | h2
      · exact hr _ _ h2 (hcell ▸ h1)
      · exact hne (hd _ _ _ h1 (hcell ▸ h2))
    · have h1 := (e1 e' he').1 hw
      rcases acc e he with h2 | h2
      · exact hr _ _ h2 (hcell ▸ h1)
      · exact hne (hd _ _ _ (hcell ▸ h2) h1)
  · have := i1.goal i a ha
    rw [hf i] at this
    exact this

/-! ## Executions that end -/

theorem Exec.append {c c' c'' : Conf ι L V} {t t' : List (Event ι L)} (x : Exec c t c') (y : Exec c' t' c'') :
    Exec c (t ++ t') c'' := by
  induction x with
  | done => exact y
  | more s _ ih => exact .more s (ih y)

open Classical in
/-- A thread can run to its end while the others wait. -/
theorem exec_alone (c : Conf ι L V) (i : ι) :
    ∃ t, Exec c t ⟨run (c.prog i) c.mem, Function.update c.prog i .stop⟩ := by
  obtain ⟨m, ps⟩ := c
  generalize hp : ps i = p
  show ∃ t, Exec _ t ⟨run (ps i) m, _⟩
  rw [hp]
  induction p generalizing m ps with
  | stop =>
    refine ⟨[], ?_⟩
    rw [show Function.update ps i .stop = ps by rw [← hp, Function.update_eq_self]]
    exact .done _
  | load a k ih =>
    obtain ⟨t, ht⟩ := ih (m a) m (Function.update ps i (k (m a))) (by simp)
    refine ⟨_ :: t, .more (.load ⟨m, ps⟩ i a k hp) ?_⟩
    simpa [run, Function.update_idem] using ht
  | store a v k ih =>
    obtain ⟨t, ht⟩ := ih (Function.update m a v) (Function.update ps i k) (by simp)
    refine ⟨_ :: t, .more (.store ⟨m, ps⟩ i a v k hp) ?_⟩
    simpa [run, Function.update_idem] using ht

/-- When only finitely many threads have anything to do, some execution comes to its end. -/
theorem exec_finishes (l : List ι) (c : Conf ι L V) (h : ∀ i, i ∉ l → c.prog i = .stop) :
    ∃ t c', Exec c t c' ∧ Finished c' := by
  classical
  induction l generalizing c with
  | nil => exact ⟨[], c, .done c, fun i => h i (by simp)⟩
  | cons i l ih =>
    obtain ⟨t, ht⟩ := exec_alone c i
    obtain ⟨t', c', ht', hf⟩ := ih ⟨run (c.prog i) c.mem, Function.update c.prog i .stop⟩ (by
      intro j hj
      show Function.update c.prog i .stop j = _
      by_cases hji : j = i
      · subst hji; simp
      · rw [Function.update_of_ne hji]; exact h j (by simp [hji, hj]))
    exact ⟨t ++ t', c', ht.append ht', hf⟩

/-! ## What a thread does on the way to its end -/

/-- The accesses `l` take the thread to its end, for some values read. -/
inductive Path : Prog L V → List (L × Bool) → Prop
  | stop : Path .stop []
  | load {a : L} {k : V a → Prog L V} {l : List (L × Bool)} (v : V a) : Path (k v) l →
      Path (.load a k) ((a, false) :: l)
  | store {a : L} {v : V a} {k : Prog L V} {l : List (L × Bool)} : Path k l → Path (.store a v k) ((a, true) :: l)

theorem Exec.path {c c' : Conf ι L V} {t : List (Event ι L)} (x : Exec c t c') (hf : Finished c') (i : ι) :
    ∃ l, Path (c.prog i) l ∧ ∀ q ∈ l, (⟨i, q.1, q.2⟩ : Event ι L) ∈ t := by
  classical
  induction x with
  | done c => exact ⟨[], by rw [hf i]; exact .stop, by simp⟩
  | more s _ ih =>
    obtain ⟨l, hl, hm⟩ := ih hf
    cases s with
    | load j a k h =>
      by_cases hij : i = j
      · subst hij
        refine ⟨(a, false) :: l, ?_, ?_⟩
        · rw [h]; simp only [Function.update_self] at hl; exact .load _ hl
        · intro q hq
          rcases List.mem_cons.1 hq with rfl | hq
          · simp
          · exact List.mem_cons_of_mem _ (hm q hq)
      · simp only [ne_eq, hij, not_false_eq_true, Function.update_of_ne] at hl
        exact ⟨l, hl, fun q hq => List.mem_cons_of_mem _ (hm q hq)⟩
    | store j a v k h =>
      by_cases hij : i = j
      · subst hij
        refine ⟨(a, true) :: l, ?_, ?_⟩
        · rw [h]; simp only [Function.update_self] at hl; exact .store hl
        · intro q hq
          rcases List.mem_cons.1 hq with rfl | hq
          · simp
          · exact List.mem_cons_of_mem _ (hm q hq)
      · simp only [ne_eq, hij, not_false_eq_true, Function.update_of_ne] at hl
        exact ⟨l, hl, fun q hq => List.mem_cons_of_mem _ (hm q hq)⟩

end TinyDIP.Par
