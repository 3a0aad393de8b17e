import Verif.Proof.Monitor

namespace Verif.Monitor

open Verif.Atomic (Kind Op Ev Obj)

variable {D S : Type}

/-! ## Wake-ups -/

/-- On its way to test the data (again), to take it, or to notify. -/
def PC.active : PC S → Bool
  | .inside _ | .woken _ _ | .expired | .taking _ _ | .notifying _ _ => true
  | _ => false

def PC.notifies : PC S → Bool
  | .notifying _ _ => true
  | _ => false

/-- The conditions under which waking one sleeper per signal suffices. `avail` is the number of waits that can succeed. -/
structure Tokens (M : Mon D S) (avail : D → Nat) : Prop where
  notReady : ∀ d, M.ready d = false → avail d = 0
  take : ∀ d, M.ready d = true → avail (M.take d) + 1 ≤ avail d
  nobody : ∀ x d, M.notify x d = .nobody → avail (M.put x d) ≤ avail d
  one : ∀ x d, M.notify x d = .one → avail (M.put x d) ≤ avail d + 1
  all : ∀ x d, M.notify x d ≠ .all
  clock : ∀ k, M.rewaits k = false

def Tok (avail : D → Nat) (s : St D S) : Prop :=
  0 < s.ths.countP PC.isAsleep → avail s.d ≤ s.ths.countP PC.active

/-- Program points that do not occur if at most one sleeper is notified at a time and the OS wait is never repeated. -/
def PC.other : PC S → Bool
  | .notifying _ true | .early _ => true
  | _ => false

def NotAll (s : St D S) : Prop := ∀ (i : Nat) (pc : PC S), s.ths[i]? = some pc → pc.other = false

theorem tok_move {avail : D → Nat} {s : St D S} {t : Nat} {pc pc' : PC S} {d' : D} {o : Option Nat}
    (T : Tok avail s) (ht : s.ths[t]? = some pc)
    (h : 0 < s.ths.countP PC.isAsleep + b2n pc'.isAsleep - b2n pc.isAsleep →
      (0 < s.ths.countP PC.isAsleep → avail s.d ≤ s.ths.countP PC.active) →
      avail d' + b2n pc.active ≤ s.ths.countP PC.active + b2n pc'.active) :
    Tok avail ⟨d', o, s.ths.set t pc'⟩ := by
  have c1 := countP_set (p := PC.isAsleep) (b := pc') ht
  have c2 := countP_set (p := PC.active) (b := pc') ht
  intro hs
  simp only at hs ⊢
  have := h (by omega) T
  omega

theorem active_of_asleep {pc : PC S} (h : pc.isAsleep = true) : pc.active = false := by
  cases pc <;> first | rfl | cases h

theorem tok_step {M : Mon D S} {avail : D → Nat} (A : Tokens M avail) {s s' : St D S} {l : Nat × Act S} {es : List (Ev S)}
    (I : Inv M s) (T : Tok avail s) (N : NotAll s) (h : step M s l = some (s', es)) : Tok avail s' ∧ NotAll s' := by
  obtain ⟨t, a⟩ := l
  have nset : ∀ {t : Nat} {pc' : PC S} {ths : List (PC S)}, (∀ (i : Nat) (pc : PC S), ths[i]? = some pc → pc.other = false) →
      pc'.other = false → ∀ (i : Nat) (pc : PC S), (ths.set t pc')[i]? = some pc → pc.other = false := by
    intro t pc' ths hN h
    exact forall_set hN h
  unfold step at h
  simp only at h
  split at h
  · cases h
  next pc ht =>
  have g1 := b2n_le_countP (p := PC.isAsleep) ht
  have g2 := b2n_le_countP (p := PC.active) ht
  split at h
  · cases h
    refine ⟨tok_move T ht ?_, nset N rfl⟩
    change 0 < _ + 0 - 0 → _ → _ + 0 ≤ _ + 0; intro h1 h2; exact h2 (by omega)
  · cases h
    refine ⟨tok_move T ht ?_, nset N rfl⟩
    change 0 < _ + 0 - 0 → _ → _ + 0 ≤ _ + 0; intro h1 h2; exact h2 (by omega)
  · split at h
    · cases h
      refine ⟨tok_move T ht ?_, nset N rfl⟩
      change 0 < _ + 0 - 0 → _ → _ + 0 ≤ _ + 1; intro h1 h2; have := h2 (by omega); omega
    · cases h
  · next k =>
    split at h
    · cases h
      refine ⟨tok_move T ht ?_, nset N rfl⟩
      change 0 < _ + 0 - 0 → _ → _ + 1 ≤ _ + 1; intro h1 h2; have := h2 (by omega); omega
    · next hr =>
      have h0 := A.notReady s.d (by simpa using hr)
      change 1 ≤ _ at g2
      split at h
      · cases h
        refine ⟨tok_move T ht ?_, nset N rfl⟩
        change 0 < _ + 0 - 0 → _ → _ + 1 ≤ _ + 0; intro _ _; omega
      · cases h
        refine ⟨tok_move T ht ?_, nset N rfl⟩
        change 0 < _ + 1 - 0 → _ → _ + 1 ≤ _ + 0; intro _ _; omega
  · cases h
    refine ⟨tok_move T ht ?_, nset N rfl⟩
    change 1 ≤ _ at g1
    change 0 < _ + 0 - 1 → _ → _ + 0 ≤ _ + 1; intro h1 h2; have := h2 (by omega); omega
  · cases h
    refine ⟨tok_move T ht ?_, nset N rfl⟩
    change 1 ≤ _ at g1
    change 0 < _ + 0 - 1 → _ → _ + 0 ≤ _ + 1; intro h1 h2; have := h2 (by omega); omega
  · next k to =>
    split at h
    · cases h
      cases to
      · refine ⟨tok_move T ht ?_, nset N rfl⟩
        change 0 < _ + 0 - 0 → _ → _ + 1 ≤ _ + 1; intro h1 h2; have := h2 (by omega); omega
      · refine ⟨tok_move T ht ?_, nset N rfl⟩
        change 0 < _ + 0 - 0 → _ → _ + 1 ≤ _ + 1; intro h1 h2; have := h2 (by omega); omega
    · cases h
  · split at h
    · next hu => rw [A.clock] at hu; cases hu
    · cases h
  · have := N t _ ht; cases this
  · split at h
    · cases h
      refine ⟨tok_move T ht ?_, nset N rfl⟩
      change 0 < _ + 0 - 0 → _ → _ + 1 ≤ _ + 1; intro h1 h2; have := h2 (by omega); omega
    · next hr =>
      have h0 := A.notReady s.d (by simpa using hr)
      cases h
      change 1 ≤ _ at g2
      refine ⟨tok_move T ht ?_, nset N rfl⟩
      change 0 < _ + 0 - 0 → _ → _ + 1 ≤ _ + 0; intro h1 h2; omega
  · next k to =>
    have h0 := A.take s.d (I.taking t _ ht rfl)
    cases h
    change 1 ≤ _ at g2
    refine ⟨tok_move T ht ?_, nset N rfl⟩
    change 0 < _ + 0 - 0 → _ → _ + 1 ≤ _ + 0; intro h1 h2; have := h2 (by omega); omega
  · split at h
    · cases h
      refine ⟨tok_move T ht ?_, nset N rfl⟩
      change 0 < _ + 0 - 0 → _ → _ + 0 ≤ _ + 0; intro h1 h2; exact h2 (by omega)
    · cases h
  · next x =>
    split at h
    · next hn =>
      have h0 := A.nobody x s.d hn
      cases h
      refine ⟨tok_move T ht ?_, nset N rfl⟩
      change 0 < _ + 0 - 0 → _ → _ + 0 ≤ _ + 0; intro h1 h2; have := h2 (by omega); omega
    · next hn =>
      have h0 := A.one x s.d hn
      cases h
      refine ⟨tok_move T ht ?_, nset N rfl⟩
      change 0 < _ + 0 - 0 → _ → _ + 0 ≤ _ + 1; intro h1 h2; have := h2 (by omega); omega
    · next hn => exact absurd hn (A.all x s.d)
  · split at h
    · next hz =>
      cases h
      refine ⟨tok_move T ht ?_, nset N rfl⟩
      change 0 < _ + 0 - 0 → _; intro h1 h2; omega
    · cases h
  · next x v to =>
    have key : ∀ (k : Kind) (to' : Bool), s.ths[v]? = some (.asleep k) →
        Tok avail { s with ths := (s.ths.set v (.woken k to')).set t (.leave (.sig x) true) } := by
      intro k to' hv
      have hne : v ≠ t := by rintro rfl; rw [hv] at ht; cases ht
      have c1 := countP_set (p := PC.isAsleep) (b := .woken k to') hv
      have c2 := countP_set (p := PC.active) (b := .woken k to') hv
      have ht' : (s.ths.set v (.woken k to'))[t]? = some (.notifying x false) := by rw [get_set_ne hne]; exact ht
      have c3 := countP_set (p := PC.isAsleep) (b := .leave (.sig x) true) ht'
      have c4 := countP_set (p := PC.active) (b := .leave (.sig x) true) ht'
      change _ + 1 = _ + 0 at c1
      change _ + 0 = _ + 1 at c2
      change _ + 0 = _ + 0 at c3
      change _ + 1 = _ + 0 at c4
      intro hs
      simp only at hs ⊢
      have := T (by omega)
      omega
    split at h
    · next hv => cases h; exact ⟨key _ _ hv, nset (nset N rfl) rfl⟩
    · next hv => cases h; exact ⟨key _ _ hv, nset (nset N rfl) rfl⟩
    · cases h
  · have := N t _ ht; cases this
  · cases h
    refine ⟨tok_move T ht ?_, nset N rfl⟩
    change 0 < _ + 0 - 0 → _ → _ + 0 ≤ _ + 0; intro h1 h2; exact h2 (by omega)
  · split at h
    · cases h
      refine ⟨tok_move T ht ?_, nset N rfl⟩
      change 0 < _ + 0 - 0 → _ → _ + 0 ≤ _ + 0; intro h1 h2; exact h2 (by omega)
    · cases h
  · split at h
    · cases h
      refine ⟨tok_move T ht ?_, nset N rfl⟩
      change 0 < _ + 0 - 0 → _ → _ + 0 ≤ _ + 0; intro h1 h2; exact h2 (by omega)
    · cases h
  · split at h
    · next hr =>
      cases h
      have h0 := A.notReady s.d (by simp only [Bool.and_eq_true, Bool.not_eq_true'] at hr; exact hr.2)
      change 1 ≤ _ at g2
      refine ⟨tok_move T ht ?_, nset N rfl⟩
      change 0 < _ + 0 - 0 → _ → _ + 1 ≤ _ + 0; intro _ _; omega
    · cases h
  · have := N t _ ht; cases this
  · cases h

theorem tok_exec {M : Mon D S} {avail : D → Nat} (A : Tokens M avail) {n : Nat} {tr : List (Ev S)} {s : St D S}
    (h : Exec (step M) (init M n) tr s) : Tok avail s := by
  have : (Inv M s) ∧ Tok avail s ∧ NotAll s := by
    refine h.invariant' (fun s => Inv M s ∧ Tok avail s ∧ NotAll s) ⟨inv_init M n, ?_, ?_⟩ ?_
    · intro hs
      simp only [init] at hs
      rw [countP_replicate_false rfl] at hs
      omega
    · intro i x hx
      rw [get_replicate hx]; rfl
    · intro s l s' es ⟨I, T, N⟩ hs
      exact ⟨inv_step I hs, tok_step A I T N hs⟩
  exact this.2.1

/-- Conditions for objects whose signal wakes everybody. -/
structure Broadcast (M : Mon D S) : Prop where
  take : ∀ d, M.ready d = true → M.ready (M.take d) = true
  nobody : ∀ x d, M.notify x d = .nobody → M.ready (M.put x d) = true → M.ready d = true
  one : ∀ x d, M.notify x d ≠ .one
  clock : ∀ k, M.rewaits k = false

/-- Program points that do not occur if always all sleepers are notified and the OS wait is never repeated. -/
def PC.other' : PC S → Bool
  | .notifying _ false | .early _ => true
  | _ => false

/-- While the object is ready, nobody sleeps unless a `notify_all` is about to be executed. -/
def Bro (M : Mon D S) (s : St D S) : Prop :=
  (M.ready s.d = true → 0 < s.ths.countP PC.isAsleep → 0 < s.ths.countP PC.notifies) ∧
  ∀ (i : Nat) (pc : PC S), s.ths[i]? = some pc → pc.other' = false

theorem bro_move {M : Mon D S} {s : St D S} {t : Nat} {pc pc' : PC S} {d' : D} {o : Option Nat}
    (T : Bro M s) (ht : s.ths[t]? = some pc) (hn : pc'.other' = false)
    (h : M.ready d' = true → 0 < s.ths.countP PC.isAsleep + b2n pc'.isAsleep - b2n pc.isAsleep →
      (M.ready s.d = true → 0 < s.ths.countP PC.isAsleep → 0 < s.ths.countP PC.notifies) →
      b2n pc.notifies < s.ths.countP PC.notifies + b2n pc'.notifies) :
    Bro M ⟨d', o, s.ths.set t pc'⟩ := by
  have c1 := countP_set (p := PC.isAsleep) (b := pc') ht
  have c2 := countP_set (p := PC.notifies) (b := pc') ht
  constructor
  · intro hr hs
    simp only at hr hs ⊢
    have := h hr (by omega) T.1
    omega
  · exact forall_set T.2 hn

theorem wakeUp_asleep (ths : List (PC S)) : (ths.map PC.wakeUp).countP PC.isAsleep = 0 := by
  rw [List.countP_map]
  apply List.countP_eq_zero.mpr
  intro pc _
  cases pc <;> simp [PC.wakeUp, PC.isAsleep]

theorem bro_step {M : Mon D S} (A : Broadcast M) {s s' : St D S} {l : Nat × Act S} {es : List (Ev S)}
    (I : Inv M s) (T : Bro M s) (h : step M s l = some (s', es)) : Bro M s' := by
  obtain ⟨t, a⟩ := l
  unfold step at h
  simp only at h
  split at h
  · cases h
  next pc ht =>
  have g1 := b2n_le_countP (p := PC.isAsleep) ht
  split at h
  · cases h
    refine bro_move T ht rfl ?_
    change _ → 0 < _ + 0 - 0 → _ → 0 < _ + 0; intro h0 h1 h2; exact h2 h0 (by omega)
  · cases h
    refine bro_move T ht rfl ?_
    change _ → 0 < _ + 0 - 0 → _ → 0 < _ + 0; intro h0 h1 h2; exact h2 h0 (by omega)
  · split at h
    · cases h
      refine bro_move T ht rfl ?_
      change _ → 0 < _ + 0 - 0 → _ → 0 < _ + 0; intro h0 h1 h2; exact h2 h0 (by omega)
    · cases h
  · split at h
    · cases h
      refine bro_move T ht rfl ?_
      change _ → 0 < _ + 0 - 0 → _ → 0 < _ + 0; intro h0 h1 h2; exact h2 h0 (by omega)
    · next hr =>
      split at h
      · cases h
        refine bro_move T ht rfl ?_
        change _ → 0 < _ + 0 - 0 → _ → 0 < _ + 0; intro h0 h1 h2; exact h2 h0 (by omega)
      · cases h
        refine bro_move T ht rfl ?_
        intro h0; exact absurd h0 hr
  · cases h
    refine bro_move T ht rfl ?_
    change _ → 0 < _ + 0 - 1 → _ → 0 < _ + 0; intro h0 h1 h2; exact h2 h0 (by omega)
  · cases h
    refine bro_move T ht rfl ?_
    change _ → 0 < _ + 0 - 1 → _ → 0 < _ + 0; intro h0 h1 h2; exact h2 h0 (by omega)
  · next k to =>
    split at h
    · cases h
      cases to
      · refine bro_move T ht rfl ?_
        change _ → 0 < _ + 0 - 0 → _ → 0 < _ + 0; intro h0 h1 h2; exact h2 h0 (by omega)
      · refine bro_move T ht rfl ?_
        change _ → 0 < _ + 0 - 0 → _ → 0 < _ + 0; intro h0 h1 h2; exact h2 h0 (by omega)
    · cases h
  · split at h
    · next hu => rw [A.clock] at hu; cases hu
    · cases h
  · have := T.2 t _ ht; cases this
  · split at h <;>
    · cases h
      refine bro_move T ht rfl ?_
      change _ → 0 < _ + 0 - 0 → _ → 0 < _ + 0; intro h0 h1 h2; exact h2 h0 (by omega)
  · cases h
    refine bro_move T ht rfl ?_
    have hr := I.taking t _ ht rfl
    change _ → 0 < _ + 0 - 0 → _ → 0 < _ + 0; intro h0 h1 h2; exact h2 hr (by omega)
  · split at h
    · cases h
      refine bro_move T ht rfl ?_
      change _ → 0 < _ + 0 - 0 → _ → 0 < _ + 0; intro h0 h1 h2; exact h2 h0 (by omega)
    · cases h
  · next x =>
    split at h
    · next hn =>
      have h0 := A.nobody x s.d hn
      cases h
      refine bro_move T ht rfl ?_
      change _ → 0 < _ + 0 - 0 → _ → 0 < _ + 0; intro hr h1 h2; exact h2 (h0 hr) (by omega)
    · next hn => exact absurd hn (A.one x s.d)
    · cases h
      refine bro_move T ht rfl ?_
      change _ → 0 < _ + 0 - 0 → _ → 0 < _ + 1; intros; omega
  · have := T.2 t _ ht; cases this
  · have := T.2 t _ ht; cases this
  · next x =>
    cases h
    constructor
    · intro _ hs
      simp only at hs
      rw [wakeUp_asleep] at hs
      omega
    · intro i y hy
      simp only [List.getElem?_map, Option.map_eq_some_iff] at hy
      obtain ⟨z, hz, hzy⟩ := hy
      subst hzy
      have hz' : z.other' = false := by
        rcases get_set_cases hz with ⟨_, rfl⟩ | ⟨_, hz⟩
        · rfl
        · exact T.2 i z hz
      cases z <;> first | exact hz' | rfl
  · cases h
    refine bro_move T ht rfl ?_
    change _ → 0 < _ + 0 - 0 → _ → 0 < _ + 0; intro h0 h1 h2; exact h2 h0 (by omega)
  · split at h
    · cases h
      refine bro_move T ht rfl ?_
      change _ → 0 < _ + 0 - 0 → _ → 0 < _ + 0; intro h0 h1 h2; exact h2 h0 (by omega)
    · cases h
  · split at h
    · cases h
      refine bro_move T ht rfl ?_
      change _ → 0 < _ + 0 - 0 → _ → 0 < _ + 0; intro h0 h1 h2; exact h2 h0 (by omega)
    · cases h
  · split at h
    · cases h
      refine bro_move T ht rfl ?_
      change _ → 0 < _ + 0 - 0 → _ → 0 < _ + 0; intro h0 h1 h2; exact h2 h0 (by omega)
    · cases h
  · have := T.2 t _ ht; cases this
  · cases h

theorem bro_exec {M : Mon D S} (A : Broadcast M) {n : Nat} {tr : List (Ev S)} {s : St D S}
    (h : Exec (step M) (init M n) tr s) : Bro M s := by
  have : Inv M s ∧ Bro M s := by
    refine h.invariant' (fun s => Inv M s ∧ Bro M s) ⟨inv_init M n, ?_, ?_⟩ ?_
    · intro _ hs
      simp only [init] at hs
      rw [countP_replicate_false rfl] at hs
      omega
    · intro i x hx
      rw [get_replicate hx]; rfl
    · intro s l s' es ⟨I, T⟩ hs
      exact ⟨inv_step I hs, bro_step A I T hs⟩
  exact this.2

/-! ## No deadlock -/

/-- Actions of the threads and the notifications they perform, as opposed to calls, timeouts, failures and spurious wake-ups. -/
def Act.internal : Act S → Bool
  | .go | .wake _ _ => true
  | _ => false

/-- If some thread is active, some thread can take an internal step. -/
theorem can_move {M : Mon D S} {s : St D S} (I : Inv M s) (h : 0 < s.ths.countP PC.active) :
    ∃ (j : Nat) (a : Act S) (s' : St D S) (es : List (Ev S)), a.internal = true ∧ step M s (j, a) = some (s', es) := by
  have hold : ∀ (o : Nat) (pc : PC S), s.ths[o]? = some pc → pc.holding = true →
      ∃ (a : Act S) (s' : St D S) (es : List (Ev S)), a.internal = true ∧ step M s (o, a) = some (s', es) := by
    intro o pc ho hh
    cases pc with
    | inside k =>
      refine ⟨.go, ?_⟩
      cases hr : M.ready s.d <;> cases k <;> simp [step, ho, hr, Act.internal]
    | expired =>
      refine ⟨.go, ?_⟩
      cases hr : M.ready s.d <;> simp [step, ho, hr, Act.internal]
    | taking k to => exact ⟨.go, by simp [step, ho, Act.internal]⟩
    | early k => exact ⟨.go, by simp [step, ho, Act.internal]⟩
    | sig x =>
      refine ⟨.go, ?_⟩
      cases hr : M.notify x s.d <;> simp [step, ho, hr, Act.internal]
    | notifying x all =>
      cases all
      · by_cases hz : s.ths.countP PC.isAsleep = 0
        · exact ⟨.go, by simp [step, ho, hz, Act.internal]⟩
        · obtain ⟨v, pc, hv, hp⟩ := exists_of_countP_pos (p := PC.isAsleep) (l := s.ths) (by omega)
          cases pc with
          | asleep k =>
            refine ⟨.wake v false, ?_⟩
            cases k <;> simp [step, ho, hv, Act.internal]
          | _ => cases hp
      · exact ⟨.go, by simp [step, ho, Act.internal]⟩
    | leave op res => exact ⟨.go, by simp [step, ho, Act.internal]⟩
    | _ => cases hh
  cases hown : s.owner with
  | some o =>
    obtain ⟨pc, hpc⟩ := I.owner o hown
    obtain ⟨a, s', es, h1, h2⟩ := hold o pc hpc ((I.own o pc hpc).mpr hown)
    exact ⟨o, a, s', es, h1, h2⟩
  | none =>
    obtain ⟨j, pc, hj, hp⟩ := exists_of_countP_pos h
    cases hh : pc.holding
    · cases pc with
      | woken k to => exact ⟨j, .go, by simp [step, hj, hown, Act.internal]⟩
      | _ => first | (cases hh; done) | (cases hp; done)
    · obtain ⟨a, s', es, h1, h2⟩ := hold j pc hj hh
      exact ⟨j, a, s', es, h1, h2⟩


/-! ## Internal runs end -/

/-- An upper bound on the number of internal steps a thread causes. -/
def PC.weight (n : Nat) : PC S → Nat
  | .idle | .asleep _ => 0
  | .leave _ _ | .early _ => 1
  | .taking _ _ => 2
  | .inside _ | .expired => 3
  | .woken _ _ | .want _ => 4
  | .notifying _ false => 6
  | .notifying _ true => 4 * n + 2
  | .sig _ => 4 * n + 9
  | .wantSig _ => 4 * n + 10

def weight (ths : List (PC S)) : Nat := (ths.map (PC.weight ths.length)).sum

theorem sum_set {α : Type} (f : α → Nat) {l : List α} {t : Nat} {a b : α} (h : l[t]? = some a) :
    ((l.set t b).map f).sum + f a = (l.map f).sum + f b := by
  induction l generalizing t with
  | nil => cases h
  | cons x l ih =>
    cases t with
    | zero => cases h; simp only [List.set_cons_zero, List.map_cons, List.sum_cons]; omega
    | succ t =>
      have := ih (t := t) (by simpa using h)
      simp only [List.set_cons_succ, List.map_cons, List.sum_cons]; omega

theorem weight_set {ths : List (PC S)} {t : Nat} {a b : PC S} (h : ths[t]? = some a) :
    weight (ths.set t b) + a.weight ths.length = weight ths + b.weight ths.length := by
  unfold weight
  rw [List.length_set]
  exact sum_set _ h

theorem weight_wakeUp_le (n : Nat) (ths : List (PC S)) :
    ((ths.map PC.wakeUp).map (PC.weight n)).sum ≤ (ths.map (PC.weight n)).sum + 4 * ths.length := by
  induction ths with
  | nil => simp
  | cons x l ih =>
    have : (PC.wakeUp x).weight n ≤ x.weight n + 4 := by
      cases x <;> simp [PC.wakeUp, PC.weight]
    simp only [List.map_cons, List.sum_cons, List.length_cons]
    omega

/-- Waking everybody by a thread that is itself awake. -/
theorem weight_wakeAll (n : Nat) {ths : List (PC S)} {t : Nat} {pc : PC S} (h : ths[t]? = some pc)
    (ha : pc.isAsleep = false) :
    ((ths.map PC.wakeUp).map (PC.weight n)).sum + 4 ≤ (ths.map (PC.weight n)).sum + 4 * ths.length := by
  induction ths generalizing t with
  | nil => cases h
  | cons x l ih =>
    cases t with
    | zero =>
      cases h
      have := weight_wakeUp_le n l
      have hx : PC.wakeUp pc = pc := by cases pc <;> first | rfl | cases ha
      simp only [List.map_cons, List.sum_cons, List.length_cons, hx]
      omega
    | succ t =>
      have := ih (t := t) (by simpa using h)
      have : (PC.wakeUp x).weight n ≤ x.weight n + 4 := by
        cases x <;> simp [PC.wakeUp, PC.weight]
      simp only [List.map_cons, List.sum_cons, List.length_cons]
      omega

theorem internal_decreases {M : Mon D S} {s s' : St D S} {t : Nat} {a : Act S} {es : List (Ev S)}
    (ha : a.internal = true) (h : step M s (t, a) = some (s', es)) : weight s'.ths < weight s.ths := by
  unfold step at h
  simp only at h
  split at h
  · cases h
  next pc ht =>
  have key : ∀ {pc' : PC S}, pc'.weight s.ths.length < pc.weight s.ths.length →
      weight (s.ths.set t pc') < weight s.ths := by
    intro pc' hw
    have := weight_set (b := pc') ht
    omega
  split at h
  · cases ha
  · cases ha
  · split at h
    · cases h; exact key (by simp [PC.weight])
    · cases h
  · split at h
    · cases h; exact key (by simp [PC.weight])
    · split at h
      · cases h; exact key (by simp [PC.weight])
      · cases h; exact key (by simp [PC.weight])
  · cases ha
  · cases ha
  · next k to =>
    split at h
    · cases h; cases to <;> exact key (by simp [PC.weight])
    · cases h
  · cases ha
  · cases h; exact key (by simp [PC.weight])
  · split at h
    · cases h; exact key (by simp [PC.weight])
    · cases h; exact key (by simp [PC.weight])
  · cases h; exact key (by simp [PC.weight])
  · split at h
    · cases h; exact key (by simp [PC.weight])
    · cases h
  · split at h
    · cases h; exact key (by simp only [PC.weight]; omega)
    · cases h; exact key (by simp only [PC.weight]; omega)
    · cases h; exact key (by simp only [PC.weight]; omega)
  · split at h
    · cases h; exact key (by simp [PC.weight])
    · cases h
  · next x v to =>
    have wk : ∀ (k : Kind) (to' : Bool), s.ths[v]? = some (.asleep k) →
        weight ((s.ths.set v (.woken k to')).set t (.leave (.sig x) true)) < weight s.ths := by
      intro k to' hv
      have hne : v ≠ t := by rintro rfl; rw [hv] at ht; cases ht
      have ht' : (s.ths.set v (.woken k to'))[t]? = some (.notifying x false) := by rw [get_set_ne hne]; exact ht
      have e1 := weight_set (b := .woken k to') hv
      have e2 := weight_set (b := .leave (.sig x) true) ht'
      simp only [PC.weight] at e1 e2
      omega
    split at h
    · next hv => cases h; exact wk _ _ hv
    · next hv => cases h; exact wk _ _ hv
    · cases h
  · next x =>
    cases h
    have e1 := weight_set (b := .leave (.sig x) true) ht
    have e2 := weight_wakeAll s.ths.length (get_set_self (b := .leave (.sig x) true) ht) rfl
    simp only [PC.weight, weight, List.length_set, List.length_map] at e1 e2 ⊢
    omega
  · cases h; exact key (by simp [PC.weight])
  · cases ha
  · cases ha
  · cases ha
  · cases ha
  · cases h

/-- A run of internal steps. -/
inductive Internal (M : Mon D S) : St D S → Nat → St D S → Prop
  | refl (s : St D S) : Internal M s 0 s
  | step {s s' s'' : St D S} {k t : Nat} {a : Act S} {es : List (Ev S)} (h : Internal M s k s')
      (ha : a.internal = true) (hs : step M s' (t, a) = some (s'', es)) : Internal M s (k + 1) s''

theorem internal_bounded {M : Mon D S} {s s' : St D S} {k : Nat} (h : Internal M s k s') :
    k + weight s'.ths ≤ weight s.ths := by
  induction h with
  | refl => omega
  | step h ha hs ih => have := internal_decreases ha hs; omega

end Verif.Monitor
