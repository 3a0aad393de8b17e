import Verif.Spec.Endless

/-!
# Executions that do not end: how to build them, and what fairness gives
-/

namespace Verif.Spec.Endless

variable {σ α ε : Type}

/-- A finite path of steps, each of which is admitted by `good`. -/
def Path (step : StepFn σ (Nat × α) ε) (good : σ → Nat × α → List ε → Prop) : σ → List ((Nat × α) × List ε) → σ → Prop
  | s, [], s' => s = s'
  | s, x :: tr, s' => ∃ s₁, step s x.1 = some (s₁, x.2) ∧ good s x.1 x.2 ∧ Path step good s₁ tr s'

private theorem seq_of_rel {β : Type} (p : β → Prop) (r : β → β → Prop) (b : β) (hb : p b) (h : ∀ x, p x → ∃ y, p y ∧ r x y) :
    ∃ f : Nat → β, f 0 = b ∧ ∀ i, p (f i) ∧ r (f i) (f (i + 1)) := by
  have h' : ∀ x : { x // p x }, ∃ y : { x // p x }, r x.1 y.1 := fun x => by
    obtain ⟨y, hy, hr⟩ := h x.1 x.2; exact ⟨⟨y, hy⟩, hr⟩
  let nx : { x // p x } → { x // p x } := fun x => Classical.choose (h' x)
  have hnx : ∀ x, r x.1 (nx x).1 := fun x => Classical.choose_spec (h' x)
  let f : Nat → { x // p x } := fun i => Nat.rec ⟨b, hb⟩ (fun _ x => nx x) i
  exact ⟨fun i => (f i).1, rfl, fun i => ⟨(f i).2, hnx (f i)⟩⟩

/-- If from every state with `P` a path leads to a state with `P` again, and each path has a step of every kind `R k`, then there is an execution
without end with infinitely many steps of each kind. -/
theorem endless_of_rounds {κ : Type} {step : StepFn σ (Nat × α) ε} {good : σ → Nat × α → List ε → Prop} {P : σ → Prop}
    {R : κ → Nat × α → List ε → Prop} (k₀ : κ)
    (hP : ∀ s, P s → ∃ tr s', Path step good s tr s' ∧ P s' ∧ ∀ k, ∃ x ∈ tr, R k x.1 x.2) {s₀ s : σ} (hr : Reachable step s₀ s) (hs : P s) :
    ∃ st lbl ev, Endless step s₀ st lbl ev ∧ st 0 = s ∧ (∀ i, good (st i) (lbl i) (ev i)) ∧ ∀ k, Often fun i => R k (lbl i) (ev i) := by
  let C := σ × List ((Nat × α) × List ε)
  let full : List ((Nat × α) × List ε) → Prop := fun tr => ∀ k, ∃ x ∈ tr, R k x.1 x.2
  let p : C → Prop := fun c => c.2 ≠ [] ∧ ∃ s', P s' ∧ Path step good c.1 c.2 s'
  let r : C → C → Prop := fun c d =>
    ∃ x rest, c.2 = x :: rest ∧ step c.1 x.1 = some (d.1, x.2) ∧ good c.1 x.1 x.2 ∧ (d.2 = rest ∧ rest ≠ [] ∨ rest = [] ∧ full d.2)
  have hfull : ∀ tr, full tr → tr ≠ [] := by
    rintro tr h rfl; obtain ⟨x, hx, _⟩ := h k₀; cases hx
  obtain ⟨tr₀, s', h1, h2, h3⟩ := hP s hs
  obtain ⟨f, f0, hf⟩ := seq_of_rel p r (s, tr₀) ⟨hfull _ h3, s', h2, h1⟩ (by
    rintro ⟨s, tr⟩ ⟨hne, s', hs', hp⟩
    match tr, hne, hp with
    | x :: rest, _, ⟨s₁, e1, g, hp⟩ =>
      by_cases hr : rest = []
      · subst hr
        have : s₁ = s' := hp
        subst this
        obtain ⟨tr, s'', q1, q2, q3⟩ := hP s₁ hs'
        exact ⟨(s₁, tr), ⟨hfull _ q3, s'', q2, q1⟩, x, [], rfl, e1, g, .inr ⟨rfl, q3⟩⟩
      · exact ⟨(s₁, rest), ⟨hr, s', hs', hp⟩, x, rest, rfl, e1, g, .inl ⟨rfl, hr⟩⟩)
  have hstep : ∀ i, ∃ x : (Nat × α) × List ε, (∃ rest, (f i).2 = x :: rest) ∧ step (f i).1 x.1 = some ((f (i + 1)).1, x.2) ∧ good (f i).1 x.1 x.2 := by
    intro i
    obtain ⟨_, x, rest, h1, h2, h3, _⟩ := hf i
    exact ⟨x, ⟨rest, h1⟩, h2, h3⟩
  let g : Nat → (Nat × α) × List ε := fun i => Classical.choose (hstep i)
  have hg : ∀ i, (∃ rest, (f i).2 = g i :: rest) ∧ step (f i).1 (g i).1 = some ((f (i + 1)).1, (g i).2) ∧ good (f i).1 (g i).1 (g i).2 :=
    fun i => Classical.choose_spec (hstep i)
  -- a whole round starts again and again
  have again : ∀ n i, (f i).2.length ≤ n → ∃ j, i ≤ j ∧ full (f j).2 := by
    intro n
    induction n with
    | zero =>
      intro i h
      exact absurd (List.length_eq_zero_iff.1 (Nat.le_zero.1 h)) (hf i).1.1
    | succ n ih =>
      intro i h
      obtain ⟨_, x, rest, h1, _, _, h4 | h4⟩ := hf i
      · rw [h1] at h
        obtain ⟨j, hj, hfj⟩ := ih (i + 1) (by rw [h4.1]; exact Nat.le_of_succ_le_succ h)
        exact ⟨j, by omega, hfj⟩
      · exact ⟨i + 1, by omega, h4.2⟩
  -- what is still to be done in a round is done
  have done : ∀ n i x, (f i).2.length ≤ n → x ∈ (f i).2 → ∃ j, i ≤ j ∧ g j = x := by
    intro n
    induction n with
    | zero =>
      intro i x h
      exact absurd (List.length_eq_zero_iff.1 (Nat.le_zero.1 h)) (hf i).1.1
    | succ n ih =>
      intro i x h hx
      obtain ⟨⟨rest', hr'⟩, _⟩ := hg i
      obtain ⟨_, y, rest, h1, _, _, h4⟩ := hf i
      rw [h1] at hr' hx h
      cases hr'
      rcases List.mem_cons.1 hx with rfl | hx
      · exact ⟨i, Nat.le_refl _, rfl⟩
      · rcases h4 with h4 | h4
        · obtain ⟨j, hj, e⟩ := ih (i + 1) x (by rw [h4.1]; exact Nat.le_of_succ_le_succ h) (by rw [h4.1]; exact hx)
          exact ⟨j, by omega, e⟩
        · rw [h4.1] at hx; cases hx
  refine ⟨fun i => (f i).1, fun i => (g i).1, fun i => (g i).2, ⟨by show Reachable step s₀ (f 0).1; rw [f0]; exact hr, fun i => (hg i).2.1⟩, by show (f 0).1 = s; rw [f0], fun i => (hg i).2.2, ?_⟩
  intro k i
  obtain ⟨j, hj, hfj⟩ := again _ i (Nat.le_refl _)
  obtain ⟨x, hx, hR⟩ := hfj k
  obtain ⟨m, hm, e⟩ := done _ j x (Nat.le_refl _) hx
  exact ⟨m, by omega, by subst e; exact hR⟩

theorem starves_of_rounds {step : StepFn σ (Nat × α) ε} {n : Nat} {fair : σ → α → Prop} {inside P : σ → Prop} {ended : List ε → Prop} {again : List ε}
    (hn : 0 < n) {s₀ s : σ} (hr : Reachable step s₀ s) (hs : P s) (hi : inside s)
    (hP : ∀ s, P s → ∃ tr s', Path step (fun s l es => fair s l.2 ∧ ¬ ended es) s tr s' ∧ P s' ∧
      (tr.map fun x => x.1.1) ⊇ List.range n ∧ tr.flatMap (fun x => x.2) ⊇ again) : Starves step s₀ n fair inside ended again := by
  obtain ⟨st, lbl, ev, h1, h2, h3, h4⟩ := endless_of_rounds (κ := { t // t < n } ⊕ { e // e ∈ again })
    (R := fun k l es => match k with | .inl t => l.1 = t.1 | .inr e => e.1 ∈ es) (.inl ⟨0, hn⟩) (P := P)
    (good := fun s l es => fair s l.2 ∧ ¬ ended es) (fun s hs => by
      obtain ⟨tr, s', p1, p2, p3, p4⟩ := hP s hs
      refine ⟨tr, s', p1, p2, ?_⟩
      rintro (⟨t, ht⟩ | ⟨e, he⟩)
      · obtain ⟨x, hx, e⟩ := List.mem_map.1 (p3 (List.mem_range.2 ht)); exact ⟨x, hx, e⟩
      · obtain ⟨x, hx, e⟩ := List.mem_flatMap.1 (p4 he); exact ⟨x, hx, e⟩) hr hs
  exact ⟨st, lbl, ev, h1, fun i => (h3 i).1, fun u hu => h4 (.inl ⟨u, hu⟩), fun e he => h4 (.inr ⟨e, he⟩), h2 ▸ hi, fun i => (h3 i).2⟩

variable {step : StepFn σ (Nat × α) ε} {s₀ : σ} {st : Nat → σ} {lbl : Nat → Nat × α} {ev : Nat → List ε}

theorem Endless.reachable (h : Endless step s₀ st lbl ev) (i : Nat) : Reachable step s₀ (st i) := by
  induction i with
  | zero => exact h.start
  | succ i ih => exact ih.snoc (h.next i)

/-- A thread that has a next step, and has one as long as only others take steps, takes a step; until then what the others do not destroy holds. -/
theorem Scheduled.steps {own : σ → α → Prop} (hf : Scheduled step own st lbl) (t i : Nat) (Q : Nat → Prop) (hQ : Q i)
    (hready : ∀ j, i ≤ j → Q j → Ready step own (st j) t)
    (hkeep : ∀ j, i ≤ j → Q j → (lbl j).1 ≠ t → Q (j + 1)) : ∃ j, i ≤ j ∧ Q j ∧ (lbl j).1 = t := by
  refine Classical.byContradiction fun hn => ?_
  have all : ∀ d, Q (i + d) ∧ (lbl (i + d)).1 ≠ t := by
    intro d
    induction d with
    | zero => exact ⟨hQ, fun h => hn ⟨i, Nat.le_refl _, hQ, h⟩⟩
    | succ d ih =>
      have hq := hkeep (i + d) (by omega) ih.1 ih.2
      exact ⟨hq, fun h => hn ⟨i + d + 1, by omega, hq, h⟩⟩
  obtain ⟨j, hj, h | h⟩ := hf t i
  · obtain ⟨d, rfl⟩ := Nat.exists_eq_add_of_le hj; exact (all d).2 h
  · obtain ⟨d, rfl⟩ := Nat.exists_eq_add_of_le hj; exact h (hready _ hj (all d).1)

/-- A number that some ready thread can lower, and that nobody else raises or makes harder to lower, does not stay positive for ever. -/
theorem Scheduled.lead {own : σ → α → Prop} (hf : Scheduled step own st lbl) (rank : Nat → Nat) (help : Nat → Nat → Prop) (goal : Nat → Prop) (i : Nat)
    (h0 : ∀ j, i ≤ j → ¬ goal j → ∃ u, help j u)
    (hready : ∀ j u, i ≤ j → ¬ goal j → help j u → Ready step own (st j) u)
    (hstep : ∀ j u, i ≤ j → ¬ goal j → help j u → (lbl j).1 = u → rank (j + 1) < rank j)
    (hkeep : ∀ j u, i ≤ j → ¬ goal j → help j u → (lbl j).1 ≠ u → rank (j + 1) < rank j ∨ rank (j + 1) = rank j ∧ help (j + 1) u) :
    ∃ j, i ≤ j ∧ goal j := by
  refine Classical.byContradiction fun hn => ?_
  have ng : ∀ j, i ≤ j → ¬ goal j := fun j hj hg => hn ⟨j, hj, hg⟩
  have key : ∀ r m, i ≤ m → rank m = r → False := by
    intro r
    induction r using Nat.strongRecOn with
    | _ r ih =>
      intro m hm hr
      have low : ∀ j, m ≤ j → ¬ rank j < r := fun j hj h => ih _ h j (by omega) rfl
      obtain ⟨u, hu⟩ := h0 m hm (ng m hm)
      obtain ⟨j, hj, ⟨hq, hr'⟩, hl⟩ := hf.steps u m (fun j => help j u ∧ rank j = r) ⟨hu, hr⟩
        (fun j hj hq => hready j u (by omega) (ng j (by omega)) hq.1) (fun j hj hq hl => by
          rcases hkeep j u (by omega) (ng j (by omega)) hq.1 hl with h | h
          · exact absurd (hq.2 ▸ h) (low _ (by omega))
          · exact ⟨h.2, h.1.trans hq.2⟩)
      exact low (j + 1) (by omega) (hr' ▸ hstep j u (by omega) (ng j (by omega)) hq hl)
  exact key _ i (Nat.le_refl _) rfl

theorem from_on {p : Nat → Prop} {i : Nat} (h0 : p i) (hk : ∀ j, i ≤ j → p j → p (j + 1)) : ∀ j, i ≤ j → p j := by
  intro j hj
  obtain ⟨d, rfl⟩ := Nat.exists_eq_add_of_le hj
  induction d with
  | zero => exact h0
  | succ d ih => exact hk (i + d) (Nat.le_add_right i d) (ih (Nat.le_add_right i d))

theorem not_often {p : Nat → Prop} (h : ¬ Often p) : ∃ i, ∀ j, i ≤ j → ¬ p j := by
  refine Classical.byContradiction fun hn => h fun i => ?_
  refine Classical.byContradiction fun hm => hn ⟨i, fun j hj hp => hm ⟨j, hj, hp⟩⟩

/-- Threads that take steps again and again are not forgotten, and neither are threads that do not exist. -/
theorem scheduled_of_often {own : σ → α → Prop} {n : Nat} (h : ∀ u, u < n → Often fun i => (lbl i).1 = u)
    (hout : ∀ i u, n ≤ u → ¬ Ready step own (st i) u) : Scheduled step own st lbl := fun u i => by
  rcases Nat.lt_or_ge u n with hu | hu
  · obtain ⟨j, hj, e⟩ := h u hu i; exact ⟨j, hj, .inl e⟩
  · exact ⟨i, Nat.le_refl _, .inr (hout i u hu)⟩

theorem Served.scheduled {own : σ → α → Prop} (h : Served step own st lbl) : Scheduled step own st lbl := fun t => by
  by_cases hr : Often fun j => Ready step own (st j) t
  · intro i; obtain ⟨j, hj, e⟩ := h t hr i; exact ⟨j, hj, .inl e⟩
  · obtain ⟨i0, hi0⟩ := not_often hr
    intro i; exact ⟨max i i0, by omega, .inr (hi0 _ (by omega))⟩

/-- A number that never rises stops to fall. -/
theorem settles {f : Nat → Nat} {i : Nat} (h : ∀ j, i ≤ j → f (j + 1) ≤ f j) : ∃ k, i ≤ k ∧ ∀ j, k ≤ j → f j = f k := by
  have key : ∀ m i, f i ≤ m → (∀ j, i ≤ j → f (j + 1) ≤ f j) → ∃ k, i ≤ k ∧ ∀ j, k ≤ j → f j = f k := by
    intro m
    induction m with
    | zero =>
      intro i hi h
      refine ⟨i, Nat.le_refl _, fun j hj => ?_⟩
      have : ∀ j, i ≤ j → f j ≤ 0 := from_on (p := fun j => f j ≤ 0) hi fun j hj hf => Nat.le_trans (h j hj) hf
      have := this j hj; omega
    | succ m ih =>
      intro i hi h
      by_cases hc : ∃ j, i ≤ j ∧ f j ≤ m
      · obtain ⟨j, hj, hm⟩ := hc
        obtain ⟨k, hk, e⟩ := ih j hm fun j' hj' => h j' (by omega)
        exact ⟨k, by omega, e⟩
      · have hall : ∀ j, i ≤ j → f j ≤ m + 1 := from_on (p := fun j => f j ≤ m + 1) hi fun j hj hf => Nat.le_trans (h j hj) hf
        have e : ∀ j, i ≤ j → f j = m + 1 := fun j hj => by
          have := hall j hj
          have : ¬ f j ≤ m := fun hf => hc ⟨j, hj, hf⟩
          omega
        exact ⟨i, Nat.le_refl _, fun j hj => by rw [e j hj, e i (Nat.le_refl _)]⟩
  exact key (f i) i (Nat.le_refl _) h

end Verif.Spec.Endless
