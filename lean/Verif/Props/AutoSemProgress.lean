import Verif.Props.AutoEventSem

/-! C24-C26 for the semaphore based `auto_reset_event`: a post is remembered until a wait takes it, and waits fail only if
there was nothing to take. -/

namespace Verif.AutoSem

open Verif.Atomic (Kind Op Ev One successes signalsCalled prog progUpd mayFail)

theorem successes_append (a b : List (Ev One)) : successes (a ++ b) = successes a + successes b := List.countP_append

/-- Still undecided whether this `post` makes a permit. -/
def PC.undecided : PC → Bool
  | .pLoad | .pCas _ => true
  | _ => false

/-- The post of thread `t` is undecided, or there is a permit, or a wait has taken one. -/
def Remembered (t : Nat) (tr : List (Ev One)) (s : St) : Prop :=
  (∃ pc, s.ths[t]? = some pc ∧ pc.undecided = true) ∨
    0 < s.sem + s.ths.countP PC.posting + s.ths.countP PC.won + successes tr

theorem remembered_move {s : St} {tr es : List (Ev One)} {t u : Nat} {pc pc' : PC} {st' : Int} {sem' : Nat}
    (R : Remembered t tr s) (hu : s.ths[u]? = some pc)
    (h1 : s.sem + b2n pc.posting + b2n pc.won ≤ sem' + b2n pc'.posting + b2n pc'.won + successes es)
    (h2 : u = t → pc.undecided = true → pc'.undecided = true ∨ 0 < sem' + b2n pc'.posting ∨ s.state < 0)
    (I : s.state < 0 → 0 < s.sem + s.ths.countP PC.posting) :
    Remembered t (tr ++ es) ⟨st', sem', s.ths.set u pc'⟩ := by
  have c1 := countP_set (p := PC.posting) (b := pc') hu
  have c2 := countP_set (p := PC.won) (b := pc') hu
  have s1 := successes_append tr es
  rcases R with ⟨x, hx, hp⟩ | R
  · by_cases hut : u = t
    · subst hut
      rw [hu] at hx
      cases hx
      rcases h2 rfl hp with h | h | h
      · exact Or.inl ⟨pc', get_set_self hu, h⟩
      · right
        simp only
        have : b2n pc.posting ≤ s.ths.countP PC.posting := by
          cases hpp : pc.posting with
          | false => exact Nat.zero_le _
          | true => exact countP_pos_of_get hu hpp
        omega
      · have := I h
        right
        simp only
        omega
    · exact Or.inl ⟨x, by simp only; rw [get_set_ne hut]; exact hx, hp⟩
  · right
    simp only
    omega

theorem remembered_step {n : Nat} {s s' : St} {tr₀ tr es : List (Ev One)} {t : Nat} {l : Nat × Act}
    (R : Remembered t tr s) (I : Inv (init n) tr₀ s) (hs : step s l = some (s', es)) : Remembered t (tr ++ es) s' := by
  have J : s.state < 0 → 0 < s.sem + s.ths.countP PC.posting := by
    intro h
    have := I.state
    omega
  obtain ⟨u, a⟩ := l
  unfold step at hs
  simp only at hs
  split at hs
  · cases hs
  next pc hu =>
  have hseen : ∀ pc, s.ths[u]? = some pc → pc.posting = false → pc.won = false →
      Remembered t (tr ++ []) ⟨s.state, s.sem, s.ths.set u (seen s.state)⟩ := by
    intro pc hu h1 h2
    obtain ⟨g1, g2, g3, g4, g5⟩ := seen_counts s.state
    refine remembered_move R hu ?_ ?_ J
    · rw [g2, g3, h1, h2]; exact Nat.le_add_right _ _
    · intro _ _
      unfold seen
      split
      · exact Or.inl rfl
      · exact Or.inr (Or.inr (by omega))
  split at hs
  all_goals (repeat' split at hs)
  all_goals first
    | contradiction
    | skip
  all_goals
    simp only [Option.some.injEq, Prod.mk.injEq] at hs
    obtain ⟨rfl, rfl⟩ := hs
  all_goals first
    | exact hseen _ hu rfl rfl
    | skip
  all_goals
    refine remembered_move R hu ?_ ?_ J
  all_goals first
    | (intro _ h; first | cases h; done)
    | (intro _ _; right; left; simp only [PC.posting, b2n_true]; omega)
    | (simp [PC.posting, PC.won, b2n, successes]; done)
    | (simp [PC.posting, PC.won, b2n, successes]; omega)
    | (rename_i op res; cases op <;> cases res <;> simp [PC.posting, PC.won, b2n, successes])
    | skip

/-- **C25.**  A post is not forgotten: if since a call of `post()` no wait has succeeded and no call is in progress any
more, then a permit is there, and the next wait of any kind by any thread succeeds. -/
theorem C25_post_remembered {n : Nat} {tr₁ es tr₂ : List (Ev One)} {s₁ s₂ s₃ : St} {t : Nat}
    (h₁ : Exec step (init n) tr₁ s₁) (hc : step s₁ (t, .call (.sig .post)) = some (s₂, es)) (h₂ : Exec step s₂ tr₂ s₃)
    (hno : successes tr₂ = 0) (hidle : ∀ (i : Nat) pc, s₃.ths[i]? = some pc → pc = .idle) :
    0 < s₃.sem ∧ ∀ u k, s₃.ths[u]? = some .idle → ∃ s₄,
      runFrom step s₃ [(u, .call (.acq k)), (u, .go), (u, .go), (u, .go)] =
        some (s₄, [.called u (.acq k), .ret u (.acq k) true]) := by
  have I₂ : Inv (init n) (tr₁ ++ es) s₂ := inv_exec (Exec.snoc h₁ hc)
  have R₂ : Remembered t [] s₂ := by
    left
    simp only [step] at hc
    split at hc
    · cases hc
    next pc hpc =>
    cases pc <;> simp only [Option.some.injEq, Prod.mk.injEq, reduceCtorEq] at hc
    obtain ⟨rfl, rfl⟩ := hc
    exact ⟨_, get_set_self hpc, rfl⟩
  have R₃ : Remembered t tr₂ s₃ ∧ ∃ tr, Inv (init n) tr s₃ :=
    h₂.invariant (fun tr s => Remembered t tr s ∧ ∃ tr, Inv (init n) tr s) ⟨R₂, _, I₂⟩
      (fun _ _ _ _ _ ⟨R, _, I⟩ hs => ⟨remembered_step R I hs, _, inv_step I hs⟩)
  have none : ∀ p : PC → Bool, p .idle = false → s₃.ths.countP p = 0 := by
    intro p hp
    apply countP_eq_zero_of_forall
    intro i x hx
    rw [hidle i x hx]
    exact hp
  have hsem : 0 < s₃.sem := by
    rcases R₃.1 with ⟨pc, hpc, hp⟩ | h
    · rw [hidle t pc hpc] at hp; cases hp
    · rw [none PC.posting rfl, none PC.won rfl, hno] at h
      omega
  refine ⟨hsem, ?_⟩
  intro u k hu
  have : ∃ s₄, runFrom step s₃ [(u, .call (.acq k)), (u, .go), (u, .go), (u, .go)] =
      some (s₄, [.called u (.acq k), .ret u (.acq k) true]) := by
    simp only [runFrom, step, hu, get_set_self hu, List.set_set, hsem, if_true]
    exact ⟨_, rfl⟩
  exact this

/-- Two posts in a row, the second while the first is remembered. -/
example : ∃ tr₁ es tr₂ s₁ s₂ s₃, Exec step (init 2) tr₁ s₁ ∧ step s₁ (0, .call (.sig .post)) = some (s₂, es) ∧
    Exec step s₂ tr₂ s₃ ∧ successes tr₂ = 0 ∧ s₃.ths = [.idle, .idle] :=
  ⟨_, _, _, _, _, _, exec_of_run (ls := [(1, .call (.sig .post)), (1, .go), (1, .go), (1, .go), (1, .go)]) rfl, rfl,
    exec_of_run (ls := [(0, .go), (0, .go)]) rfl, rfl, rfl⟩

/-! ### Failing waits -/

/-- At an instant during the running call of thread `t`, at which it might fail, there was no permit. -/
def SawNothing (n : Nat) (tr : List (Ev One)) (t : Nat) (k : Kind) : Prop :=
  ∃ tr₁ tr₂ s₁ e, tr = tr₁ ++ tr₂ ∧ Exec step (init n) tr₁ s₁ ∧ s₁.sem = 0 ∧ prog tr₁ t = some (.acq k, e) ∧
    mayFail k e = true ∧ ∀ ev ∈ tr₂, ev.silentFor t = true

theorem SawNothing.mono {n : Nat} {tr es : List (Ev One)} {t : Nat} {k : Kind} (h : SawNothing n tr t k)
    (he : ∀ ev ∈ es, ev.silentFor t = true) : SawNothing n (tr ++ es) t k := by
  obtain ⟨tr₁, tr₂, s₁, e, rfl, h1, h2, h3, h4, h5⟩ := h
  refine ⟨tr₁, tr₂ ++ es, s₁, e, by rw [List.append_assoc], h1, h2, h3, h4, ?_⟩
  intro ev hev
  rcases List.mem_append.mp hev with h | h
  · exact h5 ev h
  · exact he ev h

/-- What the history says about a thread at this program counter. -/
def Track (n : Nat) (tr : List (Ev One)) (t : Nat) : PC → Prop
  | .wAdd k | .wSem k => prog tr t = some (.acq k, false)
  | .wSub k => SawNothing n tr t k
  | .leave (.acq k) false => SawNothing n tr t k
  | _ => True

theorem progUpd_other {t u : Nat} (hu : u ≠ t) {es : List (Ev One)} (he : ∀ e ∈ es, e.thread = u) :
    ∀ p, es.foldl (progUpd t) p = p := by
  induction es with
  | nil => intro p; rfl
  | cons e es ih =>
    intro p
    rw [List.foldl_cons, ih fun e h => he e (List.mem_cons_of_mem _ h)]
    have := he e List.mem_cons_self
    cases e <;> simp only [Verif.Atomic.Ev.thread] at this <;> subst this <;> simp [progUpd, hu]

theorem track_other {n : Nat} {tr es : List (Ev One)} {t u : Nat} {pc : PC} (T : Track n tr t pc) (hu : u ≠ t)
    (he : ∀ e ∈ es, e.thread = u) : Track n (tr ++ es) t pc := by
  have hp : prog (tr ++ es) t = prog tr t := by
    rw [prog, List.foldl_append]
    exact progUpd_other hu he _
  have hs : ∀ ev ∈ es, ev.silentFor t = true := by
    intro ev hev
    have := he ev hev
    cases ev <;> simp only [Verif.Atomic.Ev.thread] at this <;> subst this <;>
      simp [Verif.Atomic.Ev.silentFor, hu]
  unfold Track at T ⊢
  split at T
  · rw [hp]; exact T
  · rw [hp]; exact T
  · exact T.mono hs
  · exact T.mono hs
  · trivial

def AllTrack (n : Nat) (tr : List (Ev One)) (s : St) : Prop := ∀ (t : Nat) pc, s.ths[t]? = some pc → Track n tr t pc

theorem track_move {n : Nat} {tr es : List (Ev One)} {s : St} {u : Nat} {pc pc' : PC} {st' : Int} {sem' : Nat}
    (A : AllTrack n tr s) (hu : s.ths[u]? = some pc) (he : ∀ e ∈ es, e.thread = u)
    (h : Track n (tr ++ es) u pc') : AllTrack n (tr ++ es) ⟨st', sem', s.ths.set u pc'⟩ := by
  intro t x hx
  simp only at hx
  by_cases hut : u = t
  · subst hut
    rw [get_set_self hu] at hx
    cases hx
    exact h
  · rw [get_set_ne hut] at hx
    exact track_other (A t x hx) hut he

theorem track_exec {n : Nat} {tr : List (Ev One)} {s : St} (h : Exec step (init n) tr s) : AllTrack n tr s := by
  induction h with
  | init => intro t pc ht; rw [get_replicate ht]; trivial
  | @snoc tr s s' l es h hs A =>
    have hx := Exec.snoc h hs
    obtain ⟨u, a⟩ := l
    unfold step at hs
    simp only at hs
    split at hs
    · cases hs
    next pc hu =>
    have T := A u _ hu
    split at hs
    all_goals (repeat' split at hs)
    all_goals first
      | contradiction
      | skip
    all_goals
      simp only [Option.some.injEq, Prod.mk.injEq] at hs
      obtain ⟨rfl, rfl⟩ := hs
    all_goals
      refine track_move A hu (by simp [Verif.Atomic.Ev.thread]) ?_
    all_goals first
      | trivial
      | (unfold seen; split <;> trivial)
      | (simp only [List.append_nil]; exact T)
      | (simp [Track, prog, progUpd]; done)
      | skip
    · next hsem _ =>
      exact ⟨tr, [], s, false, rfl, h, by omega, by simpa [Track] using T, rfl, by simp⟩
    · next hsem =>
      refine ⟨_, [], _, true, (List.append_nil _).symm, hx, hsem, ?_, rfl, by simp⟩
      have T : prog tr u = some (.acq .timed, false) := T
      rw [prog] at T ⊢
      rw [List.foldl_append, T]
      simp [progUpd]

/-- **C24.**  `wait()` never fails; `try_wait()` and the timed waits fail only if there was an instant during the call (for
a timed wait: after the timeout was reported) at which no permit was there. -/
theorem C24_failure_justified {n : Nat} {tr es : List (Ev One)} {s s' : St} {l : Nat × Act} {t : Nat} {k : Kind}
    (h : Exec step (init n) tr s) (hs : step s l = some (s', es)) (he : Ev.ret t (.acq k) false ∈ es) :
    k ≠ .wait ∧ ∃ tr₁ tr₂ s₁ e, tr = tr₁ ++ tr₂ ∧ Exec step (init n) tr₁ s₁ ∧ s₁.sem = 0 ∧
      prog tr₁ t = some (.acq k, e) ∧ mayFail k e = true ∧ ∀ ev ∈ tr₂, ev.silentFor t = true := by
  have A := track_exec h
  suffices SawNothing n tr t k by
    refine ⟨?_, this⟩
    rintro rfl
    obtain ⟨_, _, _, e, _, _, _, _, h, _⟩ := this
    cases h
  obtain ⟨u, a⟩ := l
  unfold step at hs
  simp only at hs
  split at hs
  · cases hs
  next pc hu =>
  have T := A u _ hu
  split at hs
  all_goals (repeat' split at hs)
  all_goals first
    | contradiction
    | skip
  all_goals
    simp only [Option.some.injEq, Prod.mk.injEq] at hs
    obtain ⟨rfl, rfl⟩ := hs
  all_goals first
    | (simp at he; done)
    | skip
  simp only [List.mem_singleton, Verif.Atomic.Ev.ret.injEq] at he
  obtain ⟨rfl, rfl, rfl⟩ := he
  exact T

/-- A timed wait that times out although a post follows. -/
example : ∃ tr es s s' l, Exec step (init 2) tr s ∧ step s l = some (s', es) ∧ Ev.ret 0 (.acq .timed) false ∈ es :=
  ⟨_, _, _, _, (0, .go), exec_of_run (ls := [(0, .call (.acq .timed)), (0, .go), (0, .timeout), (1, .call (.sig .post)),
    (1, .go), (1, .go), (1, .go), (0, .go)]) rfl, rfl, by decide⟩

end Verif.AutoSem
