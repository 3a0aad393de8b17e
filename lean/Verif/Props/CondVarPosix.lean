import Verif.Proof.CondVarPosix

/-! C79, C80: condition_variable for pthreads. -/

namespace Verif.CondVarPosix

variable {D : Type}

/-! ### What the events of one step say -/

/-- The events of a step come one after the other, with the invariant describing the state before each of them. -/
structure Legal (d₀ : D) (pre : List (Ev D)) (e : Ev D) : Prop where
  ret : ∀ t b, e = .ret t b → ownerOf pre = some t ∧ ∃ c, callOf pre t = some c ∧
    (∀ p, c.pred = some p → p (dataOf d₀ pre) = b) ∧ (c.pred = none → b = true → c.woken = true) ∧
    (b = false → c.kind ≠ .plain ∧ c.expired = true)
  threw : ∀ t, e = .threw t → ownerOf pre = some t ∧ callOf pre t ≠ none
  called : ∀ t k p, e = .called t k p → ownerOf pre = some t ∧ callOf pre t = none
  free : ∀ t, e = .locked t ∨ e = .relocked t → ownerOf pre = none
  own : ∀ t d, e = .unlocked t ∨ e = .slept t ∨ e = .updated t d → ownerOf pre = some t
  waits : ∀ t, e = .relocked t ∨ e = .slept t → callOf pre t ≠ none

/-- All events of an execution. -/
def AllLegal (d₀ : D) (tr : List (Ev D)) : Prop := ∀ pre e post, tr = pre ++ e :: post → Legal d₀ pre e

/-- Events about which `Legal` says nothing. -/
def Ev.neutral : Ev D → Bool
  | .spurious _ | .interrupted _ | .expired _ | .notified _ _ _ => true
  | _ => false

theorem legal_neutral {d₀ : D} {tr : List (Ev D)} {e : Ev D} (h : e.neutral = true) : Legal d₀ tr e := by
  refine ⟨?_, ?_, ?_, ?_, ?_, ?_⟩
  · rintro t b rfl; cases h
  · rintro t rfl; cases h
  · rintro t k p rfl; cases h
  · rintro t (rfl | rfl) <;> cases h
  · rintro t d (rfl | rfl | rfl) <;> cases h
  · rintro t (rfl | rfl) <;> cases h

theorem allLegal_snoc {d₀ : D} {tr : List (Ev D)} {e : Ev D} (A : AllLegal d₀ tr) (h : Legal d₀ tr e) :
    AllLegal d₀ (tr ++ [e]) := by
  intro pre e' post heq
  rcases List.eq_nil_or_concat post with rfl | ⟨post', x, rfl⟩
  · obtain ⟨h1, h2⟩ := List.append_inj' heq rfl
    cases h2
    subst h1
    exact h
  · have heq : tr ++ [e] = (pre ++ e' :: post') ++ [x] := by simpa using heq
    obtain ⟨h1, h2⟩ := List.append_inj' heq rfl
    exact A pre e' post' h1

theorem legal_step {bug : Bool} {d₀ : D} {tr es : List (Ev D)} {s s' : St D} {l : Nat × Act D} (I : Inv d₀ tr s)
    (A : AllLegal d₀ tr) (hs : step bug s l = some (s', es)) : AllLegal d₀ (tr ++ es) := by
  obtain ⟨t, a⟩ := l
  unfold step at hs
  simp only at hs
  split at hs
  · cases hs
  next pc ht =>
  have g := I.good t pc ht
  have io := I.owner
  have id := I.data
  have two : ∀ e₁ e₂ : Ev D, Legal d₀ tr e₁ → Legal d₀ (tr ++ [e₁]) e₂ → AllLegal d₀ (tr ++ [e₁, e₂]) := by
    intro e₁ e₂ h1 h2
    have : tr ++ [e₁, e₂] = (tr ++ [e₁]) ++ [e₂] := by simp
    rw [this]
    exact allLegal_snoc (allLegal_snoc A h1) h2
  have relocked : s.owner = none → callOf tr t ≠ none → Legal d₀ tr (.relocked t) := by
    intro ho hc
    refine ⟨nofun, nofun, nofun, ?_, ?_, ?_⟩
    · intro _ _; rw [io]; exact ho
    · rintro u d (h | h | h) <;> cases h
    · rintro u (h | h) <;> cases h
      exact hc
  have threw : s.owner = some t → callOf tr t ≠ none → Legal d₀ tr (.threw t) := by
    intro ho hc
    refine ⟨nofun, ?_, nofun, ?_, ?_, ?_⟩
    · intro u h; cases h; exact ⟨by rw [io]; exact ho, hc⟩
    · rintro u (h | h) <;> cases h
    · rintro u d (h | h | h) <;> cases h
    · rintro u (h | h) <;> cases h
  have ret : ∀ (tr : List (Ev D)) b c, ownerOf tr = some t → callOf tr t = some c →
      (∀ p, c.pred = some p → p (dataOf d₀ tr) = b) → (c.pred = none → b = true → c.woken = true) →
      (b = false → c.kind ≠ .plain ∧ c.expired = true) → Legal d₀ tr (.ret t b) := by
    intro tr b c ho hc h1 h2 h3
    refine ⟨?_, nofun, nofun, ?_, ?_, ?_⟩
    · intro u b' h; cases h; exact ⟨ho, c, hc, h1, h2, h3⟩
    · rintro u (h | h) <;> cases h
    · rintro u d (h | h | h) <;> cases h
    · rintro u (h | h) <;> cases h
  split at hs
  · split at hs
    · next ho =>
      cases hs
      refine allLegal_snoc A ⟨nofun, nofun, nofun, fun _ _ => by rw [io]; exact ho, ?_, ?_⟩
      · rintro u d (h | h | h) <;> cases h
      · rintro u (h | h) <;> cases h
    · cases hs
  · split at hs
    · next ho =>
      cases hs
      refine allLegal_snoc A ⟨nofun, nofun, nofun, ?_, ?_, ?_⟩
      · rintro u (h | h) <;> cases h
      · rintro u d (h | h | h) <;> cases h
        rw [io]; exact ho
      · rintro u (h | h) <;> cases h
    · cases hs
  · split at hs
    · next d ho =>
      cases hs
      refine allLegal_snoc A ⟨nofun, nofun, nofun, ?_, ?_, ?_⟩
      · rintro u (h | h) <;> cases h
      · rintro u d (h | h | h) <;> cases h
        rw [io]; exact ho
      · rintro u (h | h) <;> cases h
    · cases hs
  · split at hs
    · next k ho =>
      cases hs
      refine allLegal_snoc A ⟨nofun, nofun, ?_, ?_, ?_, ?_⟩
      · intro u k p h; cases h; exact ⟨by rw [io]; exact ho, g.call⟩
      · rintro u (h | h) <;> cases h
      · rintro u d (h | h | h) <;> cases h
      · rintro u (h | h) <;> cases h
    · cases hs
  · split at hs
    · next k p ho =>
      cases hs
      refine allLegal_snoc A ⟨nofun, nofun, ?_, ?_, ?_, ?_⟩
      · intro u k p h; cases h; exact ⟨by rw [io]; exact ho, g.call⟩
      · rintro u (h | h) <;> cases h
      · rintro u d (h | h | h) <;> cases h
      · rintro u (h | h) <;> cases h
    · cases hs
  · split at hs
    · cases hs
      exact allLegal_snoc A (legal_neutral rfl)
    · cases hs
  · split at hs
    · cases hs
    · cases hs
      exact allLegal_snoc A (legal_neutral rfl)
  · cases hs
    exact allLegal_snoc A (legal_neutral rfl)
  · next k p =>
    have ho := g.holds rfl
    obtain ⟨e, w, hc⟩ := g.call
    split at hs
    · next hp =>
      cases hs
      refine allLegal_snoc A (ret tr _ _ (by rw [io]; exact ho) hc ?_ nofun nofun)
      intro q hq; cases hq; rw [id]; exact hp
    · cases hs
      rw [List.append_nil]; exact A
  · next k p =>
    cases hs
    obtain ⟨e, w, hc⟩ := g.call
    exact allLegal_snoc A (threw (g.holds rfl) (by rw [hc]; nofun))
  · cases hs
    rw [List.append_nil]; exact A
  · cases hs
    obtain ⟨e, w, hc⟩ := g.call
    refine two _ _ (legal_neutral rfl) (ret _ _ ⟨.clocked, none, true, w⟩ ?_ ?_ nofun nofun ?_)
    · rw [ownerOf_append, io]; exact g.holds rfl
    · simp [callOf_append, hc, callUpd]
    · intro _; exact ⟨nofun, rfl⟩
  · cases hs
    exact allLegal_snoc A (legal_neutral rfl)
  · next k p =>
    cases hs
    obtain ⟨e, w, hc⟩ := g.call
    refine allLegal_snoc A ⟨nofun, nofun, nofun, ?_, ?_, ?_⟩
    · rintro u (h | h) <;> cases h
    · rintro u d (h | h | h) <;> cases h
      rw [io]; exact g.holds rfl
    · rintro u (h | h) <;> cases h
      rw [hc]; nofun
  · next k p =>
    cases hs
    obtain ⟨e, w, hc⟩ := g.call
    exact allLegal_snoc A (threw (g.holds rfl) (by rw [hc]; nofun))
  · cases hs
    exact allLegal_snoc A (legal_neutral rfl)
  · split at hs
    · cases hs
    · cases hs
      rw [List.append_nil]; exact A
  · split at hs
    · cases hs
      exact allLegal_snoc A (legal_neutral rfl)
    · cases hs
  · next k p r =>
    split at hs
    · next ho =>
      have gc := g.call
      have hown : ∀ es, ownerOf (tr ++ (.relocked t :: es)) = es.foldl ownerUpd (some t) := by
        intro es; rw [ownerOf_append]; rfl
      have hcall : ∀ es, callOf (tr ++ (.relocked t :: es)) t = es.foldl (callUpd t) (callOf tr t) := by
        intro es; rw [callOf_append]; rfl
      split at hs
      · cases hs
        obtain ⟨e, hc⟩ := gc
        refine two _ _ (relocked ho (by rw [hc]; nofun)) (ret _ _ ⟨_, _, e, true⟩ (hown []) ((hcall []).trans hc) nofun (fun _ _ => rfl) nofun)
      · cases hs
        obtain ⟨e, hc⟩ := gc
        exact allLegal_snoc A (relocked ho (by rw [hc]; nofun))
      · cases hs
        obtain ⟨_, e, w, hc⟩ := gc
        exact allLegal_snoc A (relocked ho (by rw [hc]; nofun))
      · cases hs
        obtain ⟨hk, e, w, hc⟩ := gc
        have : tr ++ [.relocked t, .expired t, .ret t false] = (tr ++ [.relocked t, .expired t]) ++ [Ev.ret t false] := by simp
        rw [this]
        refine allLegal_snoc (two _ _ (relocked ho (by rw [hc]; nofun)) (legal_neutral rfl)) (ret _ _ ⟨_, none, true, w⟩ (hown _) ?_ nofun nofun (fun _ => ⟨hk, rfl⟩))
        rw [hcall, hc]
        simp [callUpd]
      · cases hs
        obtain ⟨hk, e, w, hc⟩ := gc
        exact two _ _ (relocked ho (by rw [hc]; nofun)) (legal_neutral rfl)
      · cases hs
        obtain ⟨e, w, hc⟩ := gc
        exact allLegal_snoc A (relocked ho (by rw [hc]; nofun))
    · cases hs
  · next p =>
    cases hs
    obtain ⟨k, w, hk, hc⟩ := g.call
    refine allLegal_snoc A (ret tr _ _ (by rw [io]; exact g.holds rfl) hc ?_ nofun (fun _ => ⟨hk, rfl⟩))
    intro q hq; cases hq; rw [id]
  · next p =>
    cases hs
    obtain ⟨k, w, hk, hc⟩ := g.call
    exact allLegal_snoc A (threw (g.holds rfl) (by rw [hc]; nofun))
  · cases hs

theorem legal_exec {bug : Bool} {n : Nat} {d₀ : D} {tr : List (Ev D)} {s : St D}
    (h : Exec (step bug) (init n d₀) tr s) : AllLegal d₀ tr := by
  induction h with
  | init => intro pre e post h; simp at h
  | snoc h hs A => exact legal_step (inv_exec h) A hs

/-! ### C79 -/

/-- **C79.**  Whenever a wait returns or throws, its caller holds the mutex, and it held it when it called. -/
theorem C79_mutex_held {bug : Bool} {n : Nat} {d₀ : D} {tr pre post : List (Ev D)} {s : St D} {t : Nat}
    (h : Exec (step bug) (init n d₀) tr s) :
    (∀ b, tr = pre ++ .ret t b :: post → ownerOf pre = some t) ∧
    (tr = pre ++ .threw t :: post → ownerOf pre = some t) ∧
    (∀ k p, tr = pre ++ .called t k p :: post → ownerOf pre = some t) :=
  ⟨fun b e => ((legal_exec h pre _ post e).ret t b rfl).1, fun e => ((legal_exec h pre _ post e).threw t rfl).1,
    fun k p e => ((legal_exec h pre _ post e).called t k p rfl).1⟩

/-- **C79.**  Waits take the mutex only when it is free, release it only as its owner, and do both only between call and
return. -/
theorem C79_exclusive {bug : Bool} {n : Nat} {d₀ : D} {tr pre post : List (Ev D)} {s : St D} {t : Nat}
    (h : Exec (step bug) (init n d₀) tr s) :
    (tr = pre ++ .relocked t :: post → ownerOf pre = none ∧ callOf pre t ≠ none) ∧
    (tr = pre ++ .slept t :: post → ownerOf pre = some t ∧ callOf pre t ≠ none) :=
  ⟨fun e => ⟨(legal_exec h pre _ post e).free t (.inr rfl), (legal_exec h pre _ post e).waits t (.inl rfl)⟩,
    fun e => ⟨(legal_exec h pre _ post e).own t d₀ (.inr (.inl rfl)), (legal_exec h pre _ post e).waits t (.inr rfl)⟩⟩

/-- **C79.**  The result of a wait.  With a predicate it is the value of the predicate on the data at the very moment of the
return; without, it is `no_timeout` only if the thread was notified or woken by the system.  A negative result is
given only by timed waits whose time limit was reported to be reached. -/
theorem C79_results {bug : Bool} {n : Nat} {d₀ : D} {tr pre post : List (Ev D)} {s : St D} {t : Nat} {b : Bool}
    (h : Exec (step bug) (init n d₀) tr s) (e : tr = pre ++ .ret t b :: post) :
    ∃ c, callOf pre t = some c ∧ (∀ p, c.pred = some p → p (dataOf d₀ pre) = b) ∧
      (c.pred = none → b = true → c.woken = true) ∧ (b = false → c.kind ≠ .plain ∧ c.expired = true) :=
  ((legal_exec h pre _ post e).ret t b rfl).2

/-- Thread 0 waits for the data to be 1, for a limited time; thread 1 changes them and notifies, thread 0 is woken spuriously
before and once more after. -/
def demo : List (Nat × Act Nat) :=
  [(0, .lock), (0, .wait .system (some (· == 1))), (0, .go), (0, .go), (0, .spurious), (0, .go), (0, .go), (0, .go),
   (1, .lock), (1, .update 1), (1, .unlock), (1, .notifyAll), (0, .go), (0, .go)]

example : ∃ tr pre s, Exec (step false) (init 2 0) tr s ∧ tr = pre ++ .ret 0 true :: [] ∧ s.data = 1 :=
  ⟨_, [.locked 0, .called 0 .system (some (· == 1)), .slept 0, .spurious 0, .relocked 0, .slept 0, .locked 1, .updated 1 1,
    .unlocked 1, .notified 1 true [0], .relocked 0], _, exec_of_run (ls := demo) rfl, rfl, rfl⟩

/-- A negative result, and an exception. -/
example : ∃ tr pre s, Exec (step true) (init 2 0) tr s ∧ tr = pre ++ .ret 1 false :: .called 1 .plain none :: [.threw 1] ∧
    s.owner = some 1 :=
  ⟨_, [.locked 1, .called 1 .clocked (some (· == 1)), .slept 1, .relocked 1, .expired 1], _, exec_of_run (ls := [(1, .lock), (1, .wait .clocked (some (· == 1))), (1, .go), (1, .early), (1, .go), (1, .timeout),
    (1, .go), (1, .go), (1, .go), (1, .wait .plain none), (1, .fail)]) rfl, rfl, rfl⟩

/-- **C79.**  A timed wait whose sleep has timed out returns once it gets the mutex, at the latest after a reading of the
user's clock and an evaluation of the predicate, with result `timeout` or the value of the predicate. -/
theorem C79_timeout_ends {bug : Bool} {s : St D} {t : Nat} {k : Kind} {p : Option (D → Bool)}
    (ht : s.ths[t]? = some (.wake k p .timeout)) (ho : s.owner = none) :
    ∃ ls s' b, (∀ l, l ∈ ls → l = (t, Act.go)) ∧ runFrom (step bug) s ls = some (s', [.relocked t, .expired t, .ret t b]) ∧
      b = (match p with | none => false | some p => p s.data) := by
  cases p with
  | none =>
    by_cases hk : k = .clocked
    · subst hk
      refine ⟨[(t, .go), (t, .go)], ?_⟩
      simp only [runFrom, step, ht, ho, get_set_self ht, if_true]
      exact ⟨_, _, by simp, rfl, rfl⟩
    · refine ⟨[(t, .go)], ?_⟩
      cases k with
      | clocked => exact absurd rfl hk
      | _ =>
        simp only [runFrom, step, ht, ho, if_true]
        exact ⟨_, _, by simp, rfl, rfl⟩
  | some p =>
    by_cases hk : k = .clocked
    · subst hk
      refine ⟨[(t, .go), (t, .go), (t, .go)], ?_⟩
      simp only [runFrom, step, ht, ho, get_set_self ht, if_true, List.set_set]
      exact ⟨_, _, by simp, rfl, rfl⟩
    · refine ⟨[(t, .go), (t, .go)], ?_⟩
      cases k with
      | clocked => exact absurd rfl hk
      | _ =>
        simp only [runFrom, step, ht, ho, get_set_self ht, if_true]
        exact ⟨_, _, by simp, rfl, rfl⟩

example : ∃ tr s p, Exec (step false) (init 2 0) tr s ∧ s.ths[0]? = some (.wake .system (some p) .timeout) ∧ s.owner = none :=
  ⟨_, _, _, exec_of_run (ls := demo.take 4 ++ [(0, .timeout)]) rfl, rfl, rfl⟩

/-! ### C80 -/

/-- **C80**, for waits without a time point of a user's clock, on platforms that do not repeat interrupted waits: when every
change of the data has been followed by a `notify_all`, nobody sleeps whose predicate holds. -/
theorem C80_partial {n : Nat} {d₀ : D} {tr : List (Ev D)} {s : St D} (h : Exec (step false) (init n d₀) tr s)
    (ho : owed tr = false) {t : Nat} (hk : ∀ c, callOf tr t = some c → c.kind ≠ .clocked) : ¬ Forgotten s t := by
  rintro ⟨k, p, ht, hp⟩
  obtain ⟨e, w, hc⟩ := ((inv_exec h).good t _ ht).call
  rcases fresh_exec h t _ ht (hk _ hc) with h | h
  · rw [hp] at h; cases h
  · rw [ho] at h; cases h

/-- One thread sleeps on, another has been woken and has returned. -/
example : ∃ tr s, Exec (step false) (init 3 0) tr s ∧ owed tr = false ∧ (∃ p, s.ths[2]? = some (.asleep .plain p)) ∧
    s.ths[0]? = some .idle ∧ s.data = 1 :=
  ⟨_, _, exec_of_run (ls := [(2, .lock), (2, .wait .plain (some (· == 7))), (2, .go), (2, .go)] ++ demo ++
    [(0, .unlock), (2, .go), (2, .go), (2, .go)]) rfl, rfl, ⟨_, rfl⟩, rfl, rfl⟩

/-- **C80**, refuted with a user's clock: the wait times out on the system's clock, the data are changed and `notify_all` is
called, and the wait, whose clock says that it is early, goes to sleep again without a look at the data. -/
theorem C80_refuted_user_clock : ∃ tr s, Exec (step (D := Nat) false) (init 2 0) tr s ∧ owed tr = false ∧ s.owner = none ∧
    s.ths[1]? = some .idle ∧ Forgotten s 0 :=
  ⟨_, _, exec_of_run (ls := [(0, .lock), (0, .wait .clocked (some (· == 1))), (0, .go), (0, .early), (0, .go), (0, .timeout),
    (1, .lock), (1, .update 1), (1, .notifyAll), (1, .unlock), (0, .go), (0, .early), (0, .go)]) rfl, rfl, rfl, rfl,
    .clocked, _, rfl, rfl⟩

/-- **C80**, refuted where interrupted waits are repeated, even for a wait without time limit. -/
theorem C80_refuted_interrupted : ∃ tr s, Exec (step (D := Nat) true) (init 2 0) tr s ∧ owed tr = false ∧ s.owner = none ∧
    s.ths[1]? = some .idle ∧ Forgotten s 0 :=
  ⟨_, _, exec_of_run (ls := [(0, .lock), (0, .wait .plain (some (· == 1))), (0, .go), (0, .go), (0, .interrupt),
    (1, .lock), (1, .update 1), (1, .notifyAll), (1, .unlock), (0, .go), (0, .go)]) rfl, rfl, rfl, rfl,
    .plain, _, rfl, rfl⟩

/-- Asleep in the condition variable. -/
def asleep (s : St D) (t : Nat) : Prop := ∃ k p, s.ths[t]? = some (.asleep k p)

/-- **C80.**  A notification wakes sleepers only, `notify_one` one if there is one, `notify_all` all of them, and changes
nothing else. -/
theorem C80_wakes {bug : Bool} {s s' : St D} {l : Nat × Act D} {es : List (Ev D)} (hs : step bug s l = some (s', es))
    {t : Nat} {all : Bool} {ws : List Nat} (he : Ev.notified t all ws ∈ es) :
    (∀ u, u ∈ ws → asleep s u ∧ ¬ asleep s' u) ∧ (∀ u, u ∉ ws → s'.ths[u]? = s.ths[u]?) ∧
    (all = false → (∃ u, asleep s u) → ∃ u, ws = [u]) ∧ (all = true → ∀ u, asleep s u → u ∈ ws) ∧
    s'.owner = s.owner ∧ s'.data = s.data := by
  obtain ⟨t', a⟩ := l
  unfold step at hs
  simp only at hs
  split at hs
  · cases hs
  next pc ht =>
  split at hs
  all_goals (repeat' split at hs)
  all_goals first
    | contradiction
    | skip
  all_goals
    simp only [Option.some.injEq, Prod.mk.injEq] at hs
    obtain ⟨rfl, rfl⟩ := hs
  all_goals first
    | (simp at he; done)
    | skip
  all_goals
    simp only [List.mem_singleton, Ev.notified.injEq] at he
    obtain ⟨rfl, rfl, rfl⟩ := he
  · next u _ k p hu =>
    refine ⟨?_, ?_, fun _ _ => ⟨u, rfl⟩, nofun, rfl, rfl⟩
    · intro v hv
      rw [List.mem_singleton] at hv
      subst hv
      refine ⟨⟨k, p, hu⟩, ?_⟩
      rintro ⟨k', p', h⟩
      simp only [get_set_self hu] at h
      cases h
    · intro v hv
      rw [List.mem_singleton] at hv
      exact get_set_ne (Ne.symm hv)
  · next hany =>
    refine ⟨nofun, fun _ _ => rfl, ?_, nofun, rfl, rfl⟩
    rintro _ ⟨u, k, p, hu⟩
    exact absurd (List.any_eq_true.mpr ⟨_, List.mem_of_getElem? hu, rfl⟩) hany
  · refine ⟨?_, ?_, nofun, ?_, rfl, rfl⟩
    · intro u hu
      obtain ⟨k, p, h⟩ := mem_sleepers.mp hu
      refine ⟨⟨k, p, h⟩, ?_⟩
      rintro ⟨k', p', h'⟩
      simp only [List.getElem?_map, h, Option.map_some, PC.wakeUp, Option.some.injEq, reduceCtorEq] at h'
    · intro u hu
      simp only [List.getElem?_map]
      cases hx : s.ths[u]? with
      | none => rfl
      | some x =>
        cases x with
        | asleep k p => exact absurd (mem_sleepers.mpr ⟨k, p, hx⟩) hu
        | _ => rfl
    · rintro _ u ⟨k, p, hu⟩
      exact mem_sleepers.mpr ⟨k, p, hu⟩

example : ∃ s' es, step false (⟨none, 0, [.idle, .asleep .plain none, .asleep .plain none]⟩ : St Nat) (0, .notifyOne (some 2)) =
    some (s', es) ∧ Ev.notified 0 false [2] ∈ es := ⟨_, _, rfl, by simp⟩

/-- **C80.**  A thread that a notification has woken returns as soon as it gets the mutex and its predicate holds then; if
it does not hold, the thread sleeps again, unless its time limit has passed. -/
theorem C80_returns {bug : Bool} {s : St D} {t : Nat} {k : Kind} {p : D → Bool}
    (ht : s.ths[t]? = some (.wake k (some p) .ok)) (ho : s.owner = none) :
    (p s.data = true → ∃ s', runFrom (step bug) s [(t, .go), (t, .go)] = some (s', [.relocked t, .ret t true])) ∧
    (p s.data = false → k ≠ .clocked → ∃ s', runFrom (step bug) s [(t, .go), (t, .go), (t, .go)] =
      some (s', [.relocked t, .slept t]) ∧ asleep s' t) := by
  constructor
  · intro hp
    simp only [runFrom, step, ht, ho, get_set_self ht, hp, if_true]
    exact ⟨_, rfl⟩
  · intro hp hk
    simp only [runFrom, step, ht, ho, get_set_self ht, hp, if_true, begin, hk, if_false, List.set_set, Bool.false_eq_true]
    exact ⟨_, rfl, k, some p, get_set_self ht⟩

example : ∃ tr s, Exec (step false) (init 2 0) tr s ∧ s.owner = none ∧ s.data = 1 ∧ ∃ p, s.ths[0]? = some (.wake .system (some p) .ok) :=
  ⟨_, _, exec_of_run (ls := demo.take 12) rfl, rfl, rfl, _, rfl⟩

end Verif.CondVarPosix
