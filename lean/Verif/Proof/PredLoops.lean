import Verif.Spec.PredLoops

/-! Helper lemmas for the predicate loops. -/

namespace Verif.PredLoop

theorem lastPred_append (tr es : List Ev) :
    lastPred (tr ++ es) = es.foldl (fun o e => match e with | .pred b => some b | _ => o) (lastPred tr) :=
  List.foldl_append ..

theorem firstClock_append (a b : List Ev) : firstClock (a ++ b) = (firstClock a).or (firstClock b) := by
  induction a with
  | nil => simp [firstClock]
  | cons x a ih => cases x <;> simp [firstClock, ih]

/-- What is known about the trace at each point. -/
def Inv (tr : List Ev) (pc : PC) : Prop :=
  (∀ b, Ev.ret b ∈ tr → pc = .done ∧ (∃ pre, tr = pre ++ [.pred b, .ret b]) ∧
    (b = false → ∃ pre, tr = pre ++ [.timedOut, .pred b, .ret b])) ∧
  (pc = .last → ∃ pre, tr = pre ++ [.timedOut])

theorem inv_exec {o : Overload} {tr : List Ev} {pc : PC} (h : Exec (step o) o.init tr pc) : Inv tr pc := by
  refine h.invariant Inv ⟨fun b hb => (by cases hb), ?_⟩ ?_
  · cases o <;> simp [Overload.init]
  intro tr pc i pc' es ⟨ih, ihl⟩ hs
  have hold : ∀ b, Ev.ret b ∈ tr → False := by
    intro b hm
    obtain ⟨rfl, _⟩ := ih b hm
    simp [step] at hs
  have hnew : ∀ b, Ev.ret b ∈ tr ++ es → Ev.ret b ∈ es := fun b hb =>
    (List.mem_append.mp hb).resolve_left (hold b)
  unfold step at hs
  split at hs <;> (try split at hs) <;> (try cases hs)
  all_goals first
    | (refine ⟨fun b hb => ?_, fun hl => ?_⟩
       · have := hnew b hb; simp at this
       · first | (cases hl; done) | exact ⟨tr, rfl⟩)
    | skip
  · refine ⟨fun b hb => ?_, fun hl => by cases hl⟩
    have := hnew b hb
    simp at this
    subst this
    exact ⟨rfl, ⟨tr, rfl⟩, fun h => by cases h⟩
  · refine ⟨fun b hb => ?_, fun hl => by cases hl⟩
    have := hnew b hb
    simp at this
    subst this
    obtain ⟨pre, hp⟩ := ihl rfl
    exact ⟨rfl, ⟨tr, rfl⟩, fun _ => ⟨pre, by rw [hp]; simp⟩⟩

/-- The limits of waits when the deadline is known before the loop. -/
def Lim (o : Overload) (tr : List Ev) (pc : PC) : Prop :=
  (pc = .start → tr = [] ∧ ∃ d, o = .relOnce d) ∧ (pc ≠ .start → ∃ L : Option Int,
      (match o with
        | .untimed => L = none
        | .absolute d => L = some d
        | .relOnce d => ∃ c, firstClock tr = some c ∧ L = some (c + d)
        | .relEach _ => True) ∧
      (∀ l, Ev.waits l ∈ tr → l = L) ∧ ∀ l, pc = .test l ∨ pc = .sleep l → l = L)

theorem limits_exec {o : Overload} {tr : List Ev} {pc : PC} (ho : ∀ d, o ≠ .relEach d) (h : Exec (step o) o.init tr pc) :
    Lim o tr pc := by
  refine h.invariant (Lim o) ?_ ?_
  · cases o with
    | untimed => exact ⟨(fun h => by cases h), fun _ => ⟨none, rfl, by simp, by simp [Overload.init]⟩⟩
    | absolute d => exact ⟨(fun h => by cases h), fun _ => ⟨some d, rfl, by simp, by simp [Overload.init]⟩⟩
    | relOnce d => exact ⟨fun _ => ⟨rfl, d, rfl⟩, fun h => absurd rfl h⟩
    | relEach d => exact absurd rfl (ho d)
  intro tr pc i pc' es ⟨h1, h2⟩ hs
  -- steps inside the loop
  have keep : pc ≠ .start → pc' ≠ .start → (∀ l, Ev.waits l ∈ es → pc = .test l) →
      (∀ l, pc' = .test l ∨ pc' = .sleep l → pc = .test l ∨ pc = .sleep l) →
      Lim o (tr ++ es) pc' := by
    intro hne hne' hw hl
    refine ⟨fun h => absurd h hne', fun _ => ?_⟩
    obtain ⟨L, hL, hw', hl'⟩ := h2 hne
    refine ⟨L, ?_, ?_, fun l h => hl' l (hl l h)⟩
    · cases o with
      | untimed => exact hL
      | absolute d => exact hL
      | relOnce d =>
        obtain ⟨c, hc, hd⟩ := hL
        exact ⟨c, by rw [firstClock_append, hc]; rfl, hd⟩
      | relEach d => trivial
    · intro l hm
      rcases List.mem_append.mp hm with hm | hm
      · exact hw' l hm
      · exact hl' l (Or.inl (hw l hm))
  unfold step at hs
  split at hs
  · split at hs
    · next c _ d =>
      cases hs
      obtain ⟨htr, _⟩ := h1 rfl
      subst htr
      exact ⟨fun h => by (cases h), fun _ => ⟨some (c + d), ⟨c, rfl, rfl⟩, by simp, by simp⟩⟩
    · cases hs
  · cases hs; exact keep (by simp) (by simp) (by simp) (by simp)
  · split at hs
    · next d => exact absurd rfl (ho d)
    · cases hs; exact keep (by simp) (by simp) (by simp) (by simp)
  · cases hs; exact keep (by simp) (by simp) (by simp) (by simp)
  · split at hs
    · next d => exact absurd rfl (ho d)
    · cases hs
  · cases hs; exact keep (by simp) (by simp) (by simp) (by simp)
  · cases hs; exact keep (by simp) (by simp) (by simp) (by simp)
  · cases hs; exact keep (by simp) (by simp) (by simp) (by simp)
  · cases hs; exact keep (by simp) (by simp) (by simp) (by simp)
  · cases hs; exact keep (by simp) (by simp) (by simp) (by simp)
  · cases hs

/-- One round of the loop that passes on the duration. -/
theorem round_exec (dur c : Int) (l : Option Int) : Exec (step (.relEach dur)) (.test l)
    [.pred false, .clock c, .waits (some (c + dur)), .woke] (.test (some (c + dur))) :=
  exec_of_run (r := (PC.test (some (c + dur)), [Ev.pred false, .clock c, .waits (some (c + dur)), .woke]))
    (ls := [In.pred false, .now c, .woke]) rfl

/-- Many rounds, each woken just before its limit. -/
theorem rounds_exec (dur : Int) (k : Nat) :
    ∃ tr l, Exec (step (.relEach dur)) (Overload.init (.relEach dur)) tr (.test l) ∧ firstClock tr = some 0 ∧
      Ev.waits (some ((k : Int) * dur + dur)) ∈ tr := by
  induction k with
  | zero =>
    refine ⟨_, _, round_exec dur 0 none, rfl, ?_⟩
    simp
  | succ k ih =>
    obtain ⟨tr, l, hex, hf, _⟩ := ih
    refine ⟨_, _, hex.trans (round_exec dur (((k + 1 : Nat) : Int) * dur) l), ?_, ?_⟩
    · rw [firstClock_append, hf]; rfl
    · simp

end Verif.PredLoop
