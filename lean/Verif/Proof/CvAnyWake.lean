import Verif.Proof.CvAny

/-! Notifications, progress and termination of condition_variable_any. -/

namespace Verif.CvAny

/-- The program counter belongs to a wait without a user's clock, or to none. -/
def PC.noClk : PC → Bool
  | .wLock k | .wRelease k | .wBlock k | .blocked k | .wake k _ => k ≠ .clocked
  | .wClock => false
  | _ => true

/-- Inside wait and never going to sleep again (waits without a user's clock). -/
def PC.past : PC → Bool
  | .wake _ _ | .wExit _ | .wRelock _ => true
  | _ => false

theorem noClk_set {ths : List PC} {t : Nat} {pc' : PC} (h : ∀ (u : Nat) (p : PC), ths[u]? = some p → p.noClk = true)
    (h' : pc'.noClk = true) : ∀ (u : Nat) (p : PC), (ths.set t pc')[u]? = some p → p.noClk = true :=
  forall_set h h'

theorem step_noClk {s s' : St} {l : Nat × Act} {es : List Ev} (h : step s l = some (s', es))
    (hk : ∀ (u : Nat) (p : PC), s.ths[u]? = some p → p.noClk = true) (hes : NoUserClock es) :
    ∀ (u : Nat) (p : PC), s'.ths[u]? = some p → p.noClk = true := by
  obtain ⟨t, a⟩ := l
  unfold step at h
  simp only at h
  split at h
  · cases h
  next pc ht =>
  have hp := hk t pc ht
  split at h
  · split at h <;> cases h; exact hk
  · split at h <;> cases h; exact hk
  · next k =>
    split at h <;> cases h
    refine noClk_set hk ?_
    cases k <;> first | rfl | exact absurd (List.mem_singleton.mpr rfl) (hes t)
  · cases h; exact noClk_set hk rfl
  · split at h <;> cases h; exact noClk_set hk hp
  · cases h; exact noClk_set hk rfl
  · next k =>
    cases h
    refine noClk_set hk ?_
    have : k ≠ .clocked := by simpa [PC.noClk] using hp
    rw [if_neg this]
    exact hp
  · cases h; exact noClk_set hk rfl
  · cases h; exact noClk_set hk rfl
  · cases h; exact noClk_set hk hp
  · cases h; exact noClk_set hk rfl
  · cases h; exact noClk_set hk hp
  · cases h; exact noClk_set hk rfl
  · cases hp
  · next k r =>
    split at h <;> cases h
    refine noClk_set hk ?_
    have : k ≠ .clocked := by simpa [PC.noClk] using hp
    rw [if_neg (fun h => this h.1)]
    rfl
  · cases hp
  · cases hp
  · cases h; exact noClk_set hk rfl
  · split at h <;> cases h; exact noClk_set hk rfl
  · split at h <;> (cases h; exact noClk_set hk rfl)
  · split at h <;> cases h; exact noClk_set hk rfl
  · cases h; exact noClk_set hk rfl
  · split at h <;> cases h
    next v x k hv =>
    have := hk v _ hv
    exact noClk_set (noClk_set hk this) rfl
  · split at h <;> cases h; exact noClk_set hk rfl
  · cases h
    refine noClk_set ?_ rfl
    intro u p hu
    rw [List.getElem?_map] at hu
    cases hq : s.ths[u]? with
    | none => rw [hq] at hu; cases hu
    | some q =>
      rw [hq] at hu
      simp only [Option.map_some, Option.some.injEq] at hu
      subst hu
      have := hk u q hq
      cases q <;> exact this
  · cases h; exact noClk_set hk rfl
  · cases h

/-- A thread that will not sleep again either leaves wait or stays so. -/
theorem step_past {s s' : St} {l : Nat × Act} {es : List Ev} (h : step s l = some (s', es)) {u : Nat} {q : PC}
    (hk : q.noClk = true) (hq : s.ths[u]? = some q) (hp : q.past = true) :
    returned u es = true ∨ ∃ q', s'.ths[u]? = some q' ∧ q'.past = true := by
  obtain ⟨t, a⟩ := l
  by_cases htu : t = u
  · subst htu
    unfold step at h
    simp only [hq] at h
    cases q <;> simp only [PC.past] at hp <;> try cases hp
    · next k r =>
      have : k ≠ .clocked := by simpa [PC.noClk] using hk
      cases a <;> simp only at h <;> try cases h
      split at h <;> cases h
      rw [if_neg (fun h => this h.1)]
      exact Or.inr ⟨_, get_set_self hq, rfl⟩
    · next r =>
      cases a <;> simp only at h <;> try cases h
      exact Or.inr ⟨_, get_set_self hq, rfl⟩
    · next r =>
      cases a <;> simp only at h <;> try cases h
      · split at h <;> cases h
        exact Or.inl (by simp [returned])
      · split at h <;> (cases h; exact Or.inl (by simp [returned]))
  · right
    unfold step at h
    simp only at h
    split at h
    · cases h
    next pc ht =>
    have hset : ∀ (pc' : PC), (s.ths.set t pc')[u]? = some q := fun pc' => by rw [get_set_ne htu]; exact hq
    split at h
    · split at h <;> cases h; exact ⟨q, hq, hp⟩
    · split at h <;> cases h; exact ⟨q, hq, hp⟩
    · split at h <;> cases h; exact ⟨q, hset _, hp⟩
    · cases h; exact ⟨q, hset _, hp⟩
    · split at h <;> cases h; exact ⟨q, hset _, hp⟩
    · cases h; exact ⟨q, hset _, hp⟩
    · cases h; exact ⟨q, hset _, hp⟩
    · cases h; exact ⟨q, hset _, hp⟩
    · cases h; exact ⟨q, hset _, hp⟩
    · cases h; exact ⟨q, hset _, hp⟩
    · cases h; exact ⟨q, hset _, hp⟩
    · cases h; exact ⟨q, hset _, hp⟩
    · cases h; exact ⟨q, hset _, hp⟩
    · cases h; exact ⟨q, hset _, hp⟩
    · split at h <;> cases h; exact ⟨q, hset _, hp⟩
    · cases h; exact ⟨q, hset _, hp⟩
    · cases h; exact ⟨q, hset _, hp⟩
    · cases h; exact ⟨q, hset _, hp⟩
    · split at h <;> cases h; exact ⟨q, hset _, hp⟩
    · split at h <;> (cases h; exact ⟨q, hset _, hp⟩)
    · split at h <;> cases h; exact ⟨q, hset _, hp⟩
    · cases h; exact ⟨q, hset _, hp⟩
    · split at h <;> cases h
      next v x k hv =>
      by_cases huv : v = u
      · subst huv
        rw [hq] at hv; cases hv; cases hp
      · refine ⟨q, ?_, hp⟩
        show ((s.ths.set v _).set t _)[u]? = _
        rw [get_set_ne htu, get_set_ne huv]; exact hq
    · split at h <;> cases h; exact ⟨q, hset _, hp⟩
    · cases h
      refine ⟨q, ?_, hp⟩
      show ((s.ths.map PC.wakeUp).set t _)[u]? = _
      rw [get_set_ne htu, List.getElem?_map, hq]
      cases q <;> simp_all [PC.past, PC.wakeUp]
    · cases h; exact ⟨q, hset _, hp⟩
    · cases h

/-- The step of a notification. -/
theorem step_notified {s s' : St} {l : Nat × Act} {es : List Ev} (h : step s l = some (s', es)) {t : Nat} {all : Bool}
    {ws : List Nat} (he : Ev.notified t all ws ∈ es) :
    es = [.notified t all ws] ∧ s.ths[t]? = some (.nSignal all) ∧
      ((all = true ∧ ws = sleepers s.ths ∧ s'.ths = (s.ths.map PC.wakeUp).set t .nUnlock) ∨
       (all = false ∧ ws = [] ∧ s.ths.any PC.isBlocked = false ∧ s'.ths = s.ths.set t .nUnlock) ∨
       (∃ u k, all = false ∧ ws = [u] ∧ s.ths[u]? = some (.blocked k) ∧
          s'.ths = (s.ths.set u (.wake k .ok)).set t .nUnlock)) := by
  obtain ⟨t', a⟩ := l
  unfold step at h
  simp only at h
  split at h
  · cases h
  next pc ht =>
  split at h <;> (try split at h) <;> (try cases h) <;> simp at he
  · next v x k hv =>
    obtain ⟨rfl, rfl, rfl⟩ := he
    exact ⟨rfl, ht, Or.inr (Or.inr ⟨v, k, rfl, rfl, hv, rfl⟩)⟩
  · next hb =>
    obtain ⟨rfl, rfl, rfl⟩ := he
    exact ⟨rfl, ht, Or.inr (Or.inl ⟨rfl, rfl, by simpa using hb, rfl⟩)⟩
  · obtain ⟨rfl, rfl, rfl⟩ := he
    exact ⟨rfl, ht, Or.inl ⟨rfl, rfl, rfl⟩⟩

/-- Every thread that had released its lock before a notification that woke everybody or nobody will not sleep. -/
def Past (tr : List Ev) (s : St) : Prop :=
  ∀ pre post t all ws u, tr = pre ++ Ev.notified t all ws :: post → hasReleased u pre = true → returned u post = false →
    (all = true ∨ ws = []) → ∃ q, s.ths[u]? = some q ∧ q.past = true

theorem returned_append (u : Nat) (a b : List Ev) : returned u (a ++ b) = (returned u a || returned u b) := by
  simp [returned]

theorem noClock_append {a b : List Ev} : NoUserClock (a ++ b) ↔ NoUserClock a ∧ NoUserClock b := by
  simp [NoUserClock, forall_and]

/-- Where an event sits in a concatenation. -/
theorem split_mid {α : Type} {tr es pre post : List α} {e : α} (h : tr ++ es = pre ++ e :: post) :
    (∃ as, pre = tr ++ as ∧ es = as ++ e :: post) ∨ (∃ bs, tr = pre ++ e :: bs ∧ post = bs ++ es) := by
  rcases List.append_eq_append_iff.mp h with ⟨as, h1, h2⟩ | ⟨bs, h1, h2⟩
  · exact Or.inl ⟨as, h1, h2⟩
  · cases bs with
    | nil => exact Or.inl ⟨[], by simpa using h1.symm, by simpa using h2.symm⟩
    | cons b bs =>
      simp only [List.cons_append, List.cons.injEq] at h2
      obtain ⟨rfl, h2⟩ := h2
      exact Or.inr ⟨bs, h1, h2⟩

theorem past_exec {n : Nat} {tr : List Ev} {s : St} (h : Exec step (init n) tr s) : NoUserClock tr →
    (∀ (u : Nat) (p : PC), s.ths[u]? = some p → p.noClk = true) ∧ Past tr s := by
  induction h with
  | init =>
    intro _
    refine ⟨?_, ?_⟩
    · intro u p hp; rw [get_replicate hp]; rfl
    · intro pre post t all ws u he
      exact absurd he (by simp)
  | @snoc tr s s' l es hex hs ih =>
    intro hk
    obtain ⟨hk1, hk2⟩ := noClock_append.mp hk
    obtain ⟨hc, hP⟩ := ih hk1
    have I := inv_exec hex
    refine ⟨step_noClk hs hc hk2, ?_⟩
    intro pre post t all ws u he hrel hret hw
    rcases split_mid he with ⟨as, h1, h2⟩ | ⟨bs, h1, h2⟩
    · -- the notification is among the new events
      have hmem : Ev.notified t all ws ∈ es := by rw [h2]; simp
      obtain ⟨h3, ht, hcase⟩ := step_notified hs hmem
      rw [h3] at h2
      have has : as = [] ∧ post = [] := by
        cases as with
        | nil => simp at h2; exact ⟨rfl, h2⟩
        | cons a as => simp at h2
      obtain ⟨rfl, rfl⟩ := has
      rw [List.append_nil] at h1
      subst h1
      have hr := I.rel u
      rw [hrel] at hr
      unfold relAt at hr
      split at hr
      · next q hq =>
        have hr : q.rel = true := hr.symm
        have hut : u ≠ t := by rintro rfl; rw [ht] at hq; cases hq; cases hr
        have hint := (I.int t _ ht).mp rfl
        have hni : q.holdsInt = false := by
          cases hh : q.holdsInt with
          | false => rfl
          | true =>
            have := (I.int u q hq).mp hh
            rw [hint] at this; cases this; exact absurd rfl hut
        rcases hcase with ⟨_, _, h5⟩ | ⟨_, _, h4, h5⟩ | ⟨v, k, h4, h5, _⟩
        · refine ⟨q.wakeUp, ?_, ?_⟩
          · rw [h5, get_set_ne (Ne.symm hut), List.getElem?_map, hq]; rfl
          · cases q <;> first | rfl | (cases hr; done) | (cases hni; done)
        · refine ⟨q, ?_, ?_⟩
          · rw [h5, get_set_ne (Ne.symm hut)]; exact hq
          · have : q.isBlocked = false := by
              have := List.any_eq_false.mp h4 q (List.mem_of_getElem? hq)
              simpa using this
            cases q <;> first | rfl | (cases hr; done) | (cases hni; done) | (cases this; done)
        · rcases hw with hw | hw
          · rw [h4] at hw; cases hw
          · rw [h5] at hw; cases hw
      · cases hr
    · -- the notification is an old event
      rw [h2, returned_append, Bool.or_eq_false_iff] at hret
      obtain ⟨q, hq, hp⟩ := hP pre bs t all ws u h1 hrel hret.1 hw
      rcases step_past hs (hc u q hq) hq hp with h3 | h3
      · rw [hret.2] at h3; cases h3
      · exact h3

/-! ### Progress -/

/-- Labels that continue calls in progress: no new calls and no further round of the clock loop. -/
def Act.inner : Act → Bool
  | .go | .fail | .spurious | .timeout | .wakes _ => true
  | _ => false

theorem enabled_of_holdsInt {s : St} {t : Nat} {p : PC} (ht : s.ths[t]? = some p) (hp : p.holdsInt = true) :
    ∃ a r, (a = .go ∨ ∃ u, a = .wakes u) ∧ step s (t, a) = some r := by
  cases p <;> simp only [PC.holdsInt] at hp <;> try cases hp
  · exact ⟨.go, _, Or.inl rfl, by simp only [step, ht]; rfl⟩
  · exact ⟨.go, _, Or.inl rfl, by simp only [step, ht]; rfl⟩
  · exact ⟨.go, _, Or.inl rfl, by simp only [step, ht]; rfl⟩
  · exact ⟨.go, _, Or.inl rfl, by simp only [step, ht]; rfl⟩
  · exact ⟨.go, _, Or.inl rfl, by simp only [step, ht]; rfl⟩
  · next all =>
    cases all with
    | true => exact ⟨.go, _, Or.inl rfl, by simp only [step, ht]; rfl⟩
    | false =>
      cases hb : s.ths.any PC.isBlocked with
      | false => exact ⟨.go, _, Or.inl rfl, by simp only [step, ht, hb]; rfl⟩
      | true =>
        obtain ⟨q, hq, hbq⟩ := List.any_eq_true.mp hb
        obtain ⟨u, hu⟩ := List.getElem?_of_mem hq
        cases q <;> simp only [PC.isBlocked] at hbq <;> try cases hbq
        next k =>
        exact ⟨.wakes u, _, Or.inr ⟨u, rfl⟩, by simp only [step, ht, hu]; rfl⟩
  · exact ⟨.go, _, Or.inl rfl, by simp only [step, ht]; rfl⟩

/-- Some thread can go on. -/
def CanGo (s : St) : Prop := ∃ t a r, (a = Act.go ∨ ∃ u, a = .wakes u) ∧ step s (t, a) = some r

theorem canGo_of_holdsInt {s : St} {t : Nat} {p : PC} (ht : s.ths[t]? = some p) (hp : p.holdsInt = true) : CanGo s := by
  obtain ⟨a, r, h⟩ := enabled_of_holdsInt ht hp
  exact ⟨t, a, r, h⟩

/-- Threads that wait for the internal mutex never wait for ever. -/
theorem canGo_of_wantsInt {tr : List Ev} {s : St} (I : Inv tr s) {t : Nat} {p : PC} (ht : s.ths[t]? = some p)
    (hp : (∃ k, p = .wLock k) ∨ (∃ k r, p = .wake k r) ∨ ∃ a, p = .nLock a) : CanGo s := by
  cases hi : s.int with
  | some u =>
    obtain ⟨q, hq⟩ := I.intLt u hi
    exact canGo_of_holdsInt hq ((I.int u q hq).mpr hi)
  | none =>
    rcases hp with ⟨k, rfl⟩ | ⟨k, r, rfl⟩ | ⟨a, rfl⟩
    · exact ⟨t, .go, _, Or.inl rfl, by simp only [step, ht, hi]; rfl⟩
    · exact ⟨t, .go, _, Or.inl rfl, by simp only [step, ht, hi]; rfl⟩
    · exact ⟨t, .go, _, Or.inl rfl, by simp only [step, ht, hi]; rfl⟩

/-- How many more steps a thread can make in its call. -/
def PC.rank : PC → Nat
  | .idle | .dead => 0
  | .wLock _ => 8
  | .wRelease _ => 7
  | .wBlock _ => 6
  | .blocked _ => 5
  | .wake _ _ => 4
  | .wClock => 3
  | .wExit _ => 2
  | .wRelock _ => 1
  | .wUnwind => 1
  | .nLock _ => 3
  | .nSignal _ => 2
  | .nUnlock => 1

/-- Sum over a list of threads. -/
def total (ths : List PC) : Nat := (ths.map PC.rank).sum

theorem total_set {ths : List PC} {t : Nat} {p p' : PC} (h : ths[t]? = some p) :
    total (ths.set t p') + p.rank = total ths + p'.rank := by
  induction ths generalizing t with
  | nil => simp at h
  | cons x xs ih =>
    cases t with
    | zero =>
      simp only [List.getElem?_cons_zero, Option.some.injEq] at h
      subst h
      simp [total]; omega
    | succ t =>
      have := ih (t := t) (by simpa using h)
      simp [total] at this ⊢
      omega

theorem total_wakeUp (ths : List PC) : total (ths.map PC.wakeUp) ≤ total ths := by
  induction ths with
  | nil => exact Nat.le_refl _
  | cons x xs ih =>
    have : x.wakeUp.rank ≤ x.rank := by cases x <;> simp [PC.wakeUp, PC.rank]
    simp [total] at ih ⊢
    omega

theorem total_le (ths : List PC) : total ths ≤ 8 * ths.length := by
  induction ths with
  | nil => exact Nat.le_refl _
  | cons x xs ih =>
    have : x.rank ≤ 8 := by cases x <;> simp [PC.rank]
    simp [total] at ih ⊢
    omega

theorem step_total {s s' : St} {t : Nat} {a : Act} {es : List Ev} (ha : a.inner = true)
    (h : step s (t, a) = some (s', es)) : total s'.ths < total s.ths := by
  unfold step at h
  simp only at h
  split at h
  · cases h
  next pc ht =>
  have key : ∀ pc' : PC, pc'.rank < pc.rank → total (s.ths.set t pc') < total s.ths := by
    intro pc' hlt
    have := total_set (p' := pc') ht
    omega
  split at h
  · cases ha
  · cases ha
  · cases ha
  · cases ha
  · split at h <;> cases h; exact key _ (by simp [PC.rank])
  · cases h; exact key _ (by simp [PC.rank])
  · cases h; refine key _ ?_; split <;> simp [PC.rank]
  · cases h; exact key _ (by simp [PC.rank])
  · cases h; exact key _ (by simp [PC.rank])
  · cases h; exact key _ (by simp [PC.rank])
  · cases h; exact key _ (by simp [PC.rank])
  · cases h; exact key _ (by simp [PC.rank])
  · cases h; exact key _ (by simp [PC.rank])
  · cases h; exact key _ (by simp [PC.rank])
  · split at h <;> cases h; refine key _ ?_; split <;> simp [PC.rank]
  · cases ha
  · cases h; exact key _ (by simp [PC.rank])
  · cases h; exact key _ (by simp [PC.rank])
  · split at h <;> cases h; exact key _ (by simp [PC.rank])
  · split at h <;> (cases h; exact key _ (by simp [PC.rank]))
  · split at h <;> cases h; exact key _ (by simp [PC.rank])
  · cases h; exact key _ (by simp [PC.rank])
  · split at h <;> cases h
    next v x k hv =>
    have hne : v ≠ t := by rintro rfl; rw [ht] at hv; cases hv
    have h1 := total_set (p' := .wake k .ok) hv
    have h2 := total_set (ths := s.ths.set v (.wake k .ok)) (t := t) (p := .nSignal false) (p' := .nUnlock)
      (by rw [get_set_ne hne]; exact ht)
    simp only [PC.rank] at h1 h2
    show total ((s.ths.set v (.wake k .ok)).set t .nUnlock) < _
    omega
  · split at h <;> cases h; exact key _ (by simp [PC.rank])
  · cases h
    have h1 := total_wakeUp s.ths
    have h2 := total_set (ths := s.ths.map PC.wakeUp) (t := t) (p := .nSignal true) (p' := .nUnlock)
      (by rw [List.getElem?_map, ht]; rfl)
    simp only [PC.rank] at h2
    show total ((s.ths.map PC.wakeUp).set t .nUnlock) < _
    omega
  · cases h; exact key _ (by simp [PC.rank])
  · cases h

theorem run_bound {s : St} {ls : List (Nat × Act)} {r : St × List Ev} (h : runFrom step s ls = some r)
    (hi : ∀ l, l ∈ ls → l.2.inner = true) : ls.length ≤ total s.ths := by
  induction ls generalizing s r with
  | nil => exact Nat.zero_le _
  | cons l ls ih =>
    simp only [runFrom] at h
    split at h
    · cases h
    · next s' es hs =>
      split at h
      · cases h
      · next s'' es' hr =>
        have h1 := step_total (hi l (List.mem_cons_self ..)) hs
        have h2 := ih hr (fun l hl => hi l (List.mem_cons_of_mem _ hl))
        simp only [List.length_cons]
        omega

/-- The step that emitted an event of a trace. -/
theorem exec_cut' {n : Nat} {tr : List Ev} {s : St} (h : Exec step (init n) tr s) {pre post : List Ev} {e : Ev}
    (he : tr = pre ++ e :: post) :
    ∃ tr1 s1 t a s2 as bs, Exec step (init n) tr1 s1 ∧ step s1 (t, a) = some (s2, as ++ e :: bs) ∧ pre = tr1 ++ as := by
  induction h generalizing post with
  | init => simp at he
  | @snoc tr s s' l es hx hs ih =>
    obtain ⟨t, a⟩ := l
    rcases split_mid he with ⟨as, h1, h2⟩ | ⟨bs, h1, h2⟩
    · exact ⟨tr, s, t, a, s', as, post, hx, h2 ▸ hs, h1⟩
    · exact ih h1

end Verif.CvAny
