import Verif.Proof.TimerAgree
import Verif.Proof.TimerHandles
import Verif.Proof.TssOnce

/-! C66, C73, C75: one-time initialisation on Windows. -/

namespace Verif

/-! ## What the specification of one-time initialisation implies -/

namespace Once

theorem after_snoc {κ : Type} [DecidableEq κ] (es : List (Ev κ)) (e : Ev κ) :
    after (es ++ [e]) = (after es).bind fun p => next p e := by
  simp [after, List.foldl_append]

theorem after_prefix {κ : Type} [DecidableEq κ] (es : List (Ev κ)) : ∀ fs, accepts (es ++ fs) → accepts es := by
  intro fs
  have hnone : ∀ fs : List (Ev κ), List.foldl (fun p e => p.bind fun p => next p e) none fs = none := by
    intro fs
    induction fs with
    | nil => rfl
    | cons f fs ih => exact ih
  intro h
  unfold accepts after at h ⊢
  rw [List.foldl_append] at h
  generalize List.foldl (fun p e => p.bind fun p => next p e) (some Ph.fresh) es = o at h ⊢
  cases o with
  | none => rw [hnone] at h; cases h
  | some p => rfl

/-- Once complete, nothing but proceeding happens. -/
theorem after_complete {κ : Type} [DecidableEq κ] {es fs : List (Ev κ)} {k : κ} (h : after es = some (.complete k))
    (ha : accepts (es ++ fs)) : ∀ e ∈ fs, ∃ t, e = .proceeded t k := by
  induction fs generalizing es with
  | nil => intro e he; cases he
  | cons f fs ih =>
    rw [show es ++ f :: fs = (es ++ [f]) ++ fs by simp] at ha
    have hf := after_prefix _ _ ha
    unfold accepts at hf
    rw [after_snoc, h] at hf
    have : ∃ t, f = .proceeded t k ∧ after (es ++ [f]) = some (.complete k) := by
      rw [after_snoc, h]
      cases f with
      | proceeded t k' =>
        simp only [Option.bind_some, next] at hf ⊢
        split at hf
        · next hk => subst hk; exact ⟨t, rfl, by simp⟩
        · cases hf
      | _ => simp [next] at hf
    obtain ⟨t, rfl, h'⟩ := this
    intro e he
    rcases List.mem_cons.mp he with rfl | he
    · exact ⟨t, rfl⟩
    · exact ih h' ha e he

/-- In an allowed sequence the initialisation is completed at most once. -/
theorem done_once {κ : Type} [DecidableEq κ] {a b : List (Ev κ)} {t : Nat} {k : κ} (h : accepts (a ++ .done t k :: b)) :
    (∀ t' k', Ev.done t' k' ∉ a) ∧ ∀ e ∈ b, ∃ t', e = .proceeded t' k := by
  have h1 : accepts ((a ++ [.done t k]) ++ b) := by simpa using h
  have h2 := after_prefix _ _ h1
  have h3 : after (a ++ [.done t k]) = some (.complete k) ∧ ∃ r, after a = some (.running r) := by
    unfold accepts at h2
    rw [after_snoc] at h2 ⊢
    cases ha : after a with
    | none => rw [ha] at h2; cases h2
    | some p =>
      rw [ha] at h2
      cases p with
      | running r =>
        simp only [Option.bind_some, next] at h2 ⊢
        split at h2
        · next hr => exact ⟨by simp [hr], r, rfl⟩
        · cases h2
      | _ => simp [next] at h2
  refine ⟨?_, after_complete h3.1 h1⟩
  intro t' k' hm
  obtain ⟨x, y, rfl⟩ := List.append_of_mem hm
  have hx : accepts (x ++ .done t' k' :: y) := after_prefix _ _ h2
  have hx1 : accepts ((x ++ [.done t' k']) ++ y) := by simpa using hx
  have h4 : after (x ++ [.done t' k']) = some (.complete k') := by
    have := after_prefix _ _ hx1
    unfold accepts at this
    rw [after_snoc] at this ⊢
    cases ha : after x with
    | none => rw [ha] at this; cases this
    | some p =>
      rw [ha] at this
      cases p with
      | running r =>
        simp only [Option.bind_some, next] at this ⊢
        split at this
        · next hr => simp [hr]
        · cases this
      | _ => simp [next] at this
  have h5 : accepts ((x ++ [.done t' k']) ++ (y ++ [.done t k])) := by simpa using h2
  obtain ⟨t'', he⟩ := after_complete h4 h5 (.done t k) (by simp)
  cases he

/-- In an allowed sequence nobody proceeds before the initialisation is completed, and everybody with its result. -/
theorem proceeded_after {κ : Type} [DecidableEq κ] {a b : List (Ev κ)} {t : Nat} {k : κ}
    (h : accepts (a ++ .proceeded t k :: b)) : ∃ t', Ev.done t' k ∈ a := by
  have h2 : accepts (a ++ [.proceeded t k]) := after_prefix _ b (by simpa using h)
  have key : ∀ (es : List (Ev κ)) (k : κ), after es = some (.complete k) → ∃ t', Ev.done t' k ∈ es := by
    intro es
    rw [← List.reverse_reverse es]
    induction es.reverse with
    | nil => intro k h; cases h
    | cons e es ih =>
      rw [List.reverse_cons]
      generalize es.reverse = es at ih ⊢
      intro k h
      rw [after_snoc] at h
      cases ha : after es with
      | none => rw [ha] at h; cases h
      | some p =>
        rw [ha] at h
        simp only [Option.bind_some] at h
        cases p <;> cases e <;> simp only [next] at h
        all_goals try cases h
        all_goals (split at h <;> cases h)
        · exact ⟨_, List.mem_append_right _ (List.mem_singleton.mpr rfl)⟩
        · obtain ⟨t', ht⟩ := ih _ ha
          exact ⟨t', List.mem_append_left _ ht⟩
  unfold accepts at h2
  rw [after_snoc] at h2
  cases ha : after a with
  | none => rw [ha] at h2; cases h2
  | some p =>
    rw [ha] at h2
    cases p with
    | complete k' =>
      simp only [Option.bind_some, next] at h2
      split at h2
      · next hk => subst hk; exact key a _ ha
      · cases h2
    | _ => simp [next] at h2

end Once

/-! ## The waitable timer state -/

namespace TimerInit

/-- **C66**: for every module the events of any execution form an allowed sequence: one initialisation at a time, one
completed at most, nobody proceeds before, everybody uses its key, and a failure makes the next attempt possible. -/
theorem C66_timer {c n : Nat} {tr : List Ev} {s : St} (h : Exec step (init c n) tr s) {m : Nat} (hm : m < c) :
    Once.accepts (tr.filterMap (seen m)) := by
  have hlen : s.mods.length = c := by
    have : ∀ {tr s}, Exec step (init c n) tr s → s.mods.length = c := by
      intro tr s h
      refine h.invariant' (fun s => s.mods.length = c) (by simp [init]) ?_
      intro s l s' es ih hs
      obtain ⟨t, a⟩ := l
      obtain ⟨pc, ht, hl⟩ := step_lstep hs
      cases hl <;> simpa using ih
    exact this h
  obtain ⟨d, hd⟩ : ∃ d, s.mods[m]? = some d := ⟨s.mods[m], List.getElem?_eq_getElem (by omega)⟩
  obtain ⟨p, hp, _⟩ := exec_inv h m d hd
  unfold Once.accepts
  rw [hp]
  rfl

/-- **C66**: after failures a later caller can try again, and waits for nobody: if no thread is initialising module `m`
and it is not initialised, the flag is `st_uninitialized`, so the next thread to reach line 127 starts. -/
theorem C66_timer_retry {c n : Nat} {tr : List Ev} {s : St} (h : Exec step (init c n) tr s) {m t : Nat} {d : Mod}
    (hd : s.mods[m]? = some d) (hno : ∀ (i : Nat) (pc : PC), s.ths[i]? = some pc → pc.crit m = false)
    (hf : d.flag ≠ 2) (ht : s.ths[t]? = some (.cas m)) :
    ∃ s', step s (t, .go) = some (s', [.began t m]) := by
  obtain ⟨p, hp, M⟩ := exec_inv h m d hd
  have hp : d.flag = 0 := by
    have hr := M.rel
    cases p with
    | fresh => exact hr
    | running i =>
      obtain ⟨pc, hpc, hc⟩ := M.run i rfl
      rw [hno i pc hpc] at hc; cases hc
    | complete k => exact absurd hr.1 hf
  exact ⟨_, by simp only [step, ht, hd, hp]; rfl⟩

/-- The semaphore is never removed. -/
theorem sem_found {c n : Nat} {tr : List Ev} {s : St} (h : Exec step (init c n) tr s) :
    ∀ (i : Nat) (pc : PC), s.ths[i]? = some pc →
      (match pc with | .query _ | .free _ _ => s.sem.isSome | _ => true) = true := by
  refine h.invariant' (fun s => ∀ (i : Nat) (pc : PC), s.ths[i]? = some pc →
      (match pc with | .query _ | .free _ _ => s.sem.isSome | _ => true) = true) ?_ ?_
  · intro i pc hi; rw [get_replicate hi]
  · intro s l s' es ih hs
    obtain ⟨t, a⟩ := l
    obtain ⟨pc, ht, hl⟩ := step_lstep hs
    have hpc := ih t pc ht
    cases hl
    case createNew =>
      intro i q hq
      cases q <;> rfl
    all_goals first
      | exact forall_set ih rfl
      | exact forall_set ih hpc
      | (rename_i hsem; exact forall_set ih (by rw [hsem]; rfl))

/-- **C66**: whoever initialises can always go on, whatever the others do (so those waiting do not wait for ever): a
thread inside always has a step in which nothing fails. -/
theorem C66_timer_progress {c n : Nat} {tr : List Ev} {s : St} (h : Exec step (init c n) tr s) {m t : Nat} {pc : PC}
    (ht : s.ths[t]? = some pc) (hc : pc.crit m = true) (hm : m < s.mods.length) (hf : pc ≠ .fail m) :
    ∃ a s' es, a ≠ .fault ∧ step s (t, a) = some (s', es) := by
  obtain ⟨d, hd⟩ : ∃ d, s.mods[m]? = some d := ⟨s.mods[m], List.getElem?_eq_getElem hm⟩
  have hs := sem_found h t pc ht
  obtain ⟨k, hk⟩ : ∃ k : Nat, k ∉ s.live := by
    refine ⟨s.live.sum + 1, fun hk => ?_⟩
    have : ∀ (l : List Nat) (x : Nat), x ∈ l → x ≤ l.sum := by
      intro l
      induction l with
      | nil => intro x hx; cases hx
      | cons y l ih =>
        intro x hx
        rw [List.sum_cons]
        rcases List.mem_cons.mp hx with rfl | hx
        · omega
        · have := ih x hx; omega
    have := this _ _ hk
    omega
  cases pc <;> simp only [PC.crit, decide_eq_true_eq, Bool.false_eq_true] at hc
  case openSem =>
    subst hc
    cases hsem : s.sem with
    | none => exact ⟨.go, _, _, by simp, by simp only [step, ht, hd, hsem]; rfl⟩
    | some k => exact ⟨.go, _, _, by simp, by simp only [step, ht, hd, hsem]; rfl⟩
  case alloc => subst hc; exact ⟨.slot k, _, _, by simp, by simp only [step, ht, if_neg hk]; rfl⟩
  case create =>
    subst hc
    cases hsem : s.sem with
    | none => exact ⟨.go, _, _, by simp, by simp only [step, ht, hd, hsem]; rfl⟩
    | some k => exact ⟨.go, _, _, by simp, by simp only [step, ht, hd, hsem]; rfl⟩
  case free => subst hc; exact ⟨.go, _, _, by simp, by simp only [step, ht]; rfl⟩
  case query =>
    subst hc
    obtain ⟨k, hk⟩ := Option.isSome_iff_exists.mp hs
    exact ⟨.go, _, _, by simp, by simp only [step, ht, hk]; rfl⟩
  case alloc2 => subst hc; exact ⟨.slot k, _, _, by simp, by simp only [step, ht, if_neg hk]; rfl⟩
  case setKey => subst hc; exact ⟨.go, _, _, by simp, by simp only [step, ht, hd]; rfl⟩
  case publish => subst hc; exact ⟨.go, _, _, by simp, by simp only [step, ht, hd]; rfl⟩
  case fail => subst hc; exact absurd rfl hf

/-- Thread 0 fails for want of a TLS slot, thread 1, which has been waiting, tries again and succeeds, both proceed;
thread 0 uses another module meanwhile. -/
def demo : List (Nat × Act) :=
  [(0, .call 0), (0, .go), (0, .go), (1, .call 0), (1, .stale), (1, .go), (0, .go), (0, .fault), (0, .go),
   (1, .go), (1, .go), (0, .call 1), (0, .go), (0, .go), (0, .go), (0, .slot 7), (1, .slot 5), (1, .go), (1, .go), (1, .go),
   (0, .go), (0, .go), (0, .go), (0, .go), (0, .go), (0, .go), (1, .go)]

example : ∃ s tr, Exec step (init 2 2) tr s ∧
    tr = [.began 0 0, .threw 0 0, .began 1 0, .began 0 1, .done 1 0 5, .done 0 1 5, .proceeded 0 1 5, .proceeded 1 0 5] ∧
    s.live = [5] :=
  ⟨_, _, exec_of_run (ls := demo) rfl, by decide, by decide⟩

/-- **C73**: as long as no OS call fails, all modules use one and the same TLS slot. -/
theorem C73_one_key {c n : Nat} {tr : List Ev} {s : St} (h : Exec stepOk (init c n) tr s) {t t' m m' k k' : Nat}
    (hk : Ev.proceeded t m k ∈ tr) (hk' : Ev.proceeded t' m' k' ∈ tr) : k = k' := by
  have A := execOk_ainv h
  have h1 := A.proceeded t m k hk
  have h2 := A.proceeded t' m' k' hk'
  rw [h1] at h2
  cases h2
  rfl

/-- **C73**: and when nobody is initialising, no other slot is allocated. -/
theorem C73_one_slot {c n : Nat} {tr : List Ev} {s : St} (h : Exec stepOk (init c n) tr s)
    (hno : ∀ (i m : Nat) (pc : PC), s.ths[i]? = some pc → pc.crit m = false) : s.live.length ≤ 1 := by
  have A := execOk_ainv h
  have K := exec_kinv (execOk_exec h)
  have hz : ∀ k, s.ths.countP (PC.holds k) = 0 := by
    intro k
    apply countP_eq_zero_of_forall
    intro i pc hpc
    cases pc <;> try rfl
    all_goals (rename_i m _; have := hno i m _ hpc; simp [PC.crit] at this)
  have hall : ∀ k ∈ s.live, s.sem = some k := by
    intro k hk
    rcases K.owned k hk with h0 | (⟨i, m, hi⟩ | ⟨m, hm | ⟨b, _, i, hi⟩⟩)
    · rw [hz] at h0; omega
    · exact A.setKey i m k hi
    · rw [Option.map_eq_some_iff] at hm
      obtain ⟨d, hd, hv⟩ := hm
      simp only [Mod.view, Prod.mk.injEq, decide_eq_true_eq] at hv
      have := A.mod m d hd hv.2
      rw [hv.1] at this
      exact this
    · have := hno i m _ hi; simp [PC.crit] at this
  have nd := K.nodup
  match hl : s.live with
  | [] => simp
  | [_] => simp
  | a :: b :: rest =>
    rw [hl] at nd hall
    have h1 := hall a (by simp)
    have h2 := hall b (by simp)
    rw [h1] at h2
    cases h2
    simp at nd

/-- **C73**: whatever fails, a slot in use by a module is never freed nor handed to anybody else, and no slot is lost:
when nobody is initialising, every allocated slot is the key of an initialised module. -/
theorem C73_slots {c n : Nat} {tr : List Ev} {s : St} (h : Exec step (init c n) tr s) :
    (∀ (m : Nat) (d : Mod), s.mods[m]? = some d → d.flag = 2 → d.key ∈ s.live) ∧
    ((∀ (i m : Nat) (pc : PC), s.ths[i]? = some pc → pc.crit m = false) →
      ∀ k ∈ s.live, ∃ (m : Nat) (d : Mod), s.mods[m]? = some d ∧ d.flag = 2 ∧ d.key = k) := by
  have K := exec_kinv h
  constructor
  · intro m d hd hf
    refine (K.used d.key (Or.inr ⟨m, Or.inl ?_⟩)).1
    simp [hd, Mod.view, hf]
  · intro hno k hk
    rcases K.owned k hk with h0 | (⟨i, m, hi⟩ | ⟨m, hm | ⟨b, _, i, hi⟩⟩)
    · exfalso
      obtain ⟨i, pc, hpc, hh⟩ := exists_of_countP_pos h0
      cases pc <;> simp [PC.holds] at hh
      all_goals (rename_i m _; have := hno i m _ hpc; simp [PC.crit] at this)
    · have := hno i m _ hi; simp [PC.crit] at this
    · rw [Option.map_eq_some_iff] at hm
      obtain ⟨d, hd, hv⟩ := hm
      simp only [Mod.view, Prod.mk.injEq, decide_eq_true_eq] at hv
      exact ⟨m, d, hd, hv.2, hv.1⟩
    · have := hno i m _ hi; simp [PC.crit] at this

/-- Two modules initialised at the same time: the slot of the one that comes second is freed again. -/
def demoRace : List (Nat × Act) :=
  [(0, .call 0), (0, .go), (0, .go), (0, .go), (0, .slot 3), (1, .call 1), (1, .go), (1, .go), (1, .go), (1, .slot 4),
   (1, .go), (0, .go), (0, .go), (1, .go), (1, .go), (1, .go), (0, .go), (0, .go), (0, .go), (0, .go)]

example : ∃ s tr, Exec stepOk (init 2 2) tr s ∧ Ev.proceeded 0 0 4 ∈ tr ∧ Ev.proceeded 1 1 4 ∈ tr ∧ s.live = [4] ∧
    s.ths = [.idle, .idle] :=
  ⟨_, _, exec_of_run (ls := demoRace) rfl, by decide, by decide, by decide, by decide⟩

/-- **C75** (refuted): `destroy` registered for the exit of the process does not close all handles: if both the query of
the semaphore and the allocation of a slot fail, the handle is overwritten by the next attempt.  (Module 1 creates the
semaphore; module 0 opens it, fails, and opens it again.) -/
theorem C75_handles_refuted :
    ∃ s tr, Exec step (init 2 1) tr s ∧ s.ths = [.idle] ∧ (s.mods[0]?.map fun d => (d.flag, d.atExit.handles)) = some (2, 1) :=
  ⟨_, _, exec_of_run
    (ls := [(0, .call 1), (0, .go), (0, .go), (0, .go), (0, .slot 1), (0, .go), (0, .go), (0, .go), (0, .go),
      (0, .call 0), (0, .go), (0, .go), (0, .go), (0, .fault), (0, .fault), (0, .go),
      (0, .call 0), (0, .go), (0, .go), (0, .go), (0, .go), (0, .go), (0, .go), (0, .go)]) rfl,
    by decide, by decide⟩

/-- **C75**: at most one handle is lost per exception thrown; without exception none is: whenever the process exits, the
registered handlers close all of them. -/
theorem C75_handles_partial {c n : Nat} {tr : List Ev} {s : St} (h : Exec step (init c n) tr s) {m : Nat} {d : Mod}
    (hd : s.mods[m]? = some d) :
    d.atExit.handles ≤ throws m tr + 1 ∧ (throws m tr = 0 → d.atExit.handles = 0) := by
  have M := exec_hinv h m d hd
  have hr := (repeat_destroy d.atexit d).1
  have hle := M.le
  have hreg := M.reg
  unfold Mod.atExit
  rw [hr]
  refine ⟨by split <;> omega, fun h0 => ?_⟩
  have := M.clean h0
  split <;> omega

example : ∃ s tr, Exec step (init 2 2) tr s ∧ throws 1 tr = 0 ∧
    (s.mods[1]?.map fun d => (d.handles, d.atExit.handles)) = some (1, 0) :=
  ⟨_, _, exec_of_run (ls := demoRace) rfl, by decide, by decide⟩

end TimerInit

/-! ## The TSS manager -/

namespace TssOnce

/-- **C66**: the events of any execution form an allowed sequence: one thread constructs the manager, nobody proceeds
before it is constructed and the TLS slot allocated, and everybody uses the same manager. -/
theorem C66_tss {n : Nat} {tr : List Ev} {s : St} (h : Exec step (init n) tr s) :
    Once.accepts (tr.filterMap seen) ∧ ∀ t p, Ev.proceeded t p ∈ tr → p ≠ 0 := by
  constructor
  · obtain ⟨p, hp, _⟩ := exec_inv h
    unfold Once.accepts
    rw [hp]
    rfl
  · have key := h.invariant (fun tr s => Inv tr s ∧ ∀ t p, Ev.proceeded t p ∈ tr → p ≠ 0)
      ⟨inv_init n, by simp⟩ (by
        intro tr s l s' es ih hs
        refine ⟨step_inv tr s l s' es ih.1 hs, ?_⟩
        intro t p hp
        rcases List.mem_append.mp hp with hp | hp
        · exact ih.2 t p hp
        · obtain ⟨t', a⟩ := l
          obtain ⟨_, pc, ht, hl⟩ := step_lstep hs
          obtain ⟨q, _, P⟩ := ih.1
          cases hl <;> simp at hp
          obtain ⟨k, hk⟩ := P.ready t' ht
          subst hk
          have := P.rel
          rw [hp.2, this.2.1]
          exact this.2.2)
    exact key.2

/-- **C66**: the thread that initialises always has a step in which nothing fails, so those waiting do not wait for
ever. -/
theorem C66_tss_progress {n : Nat} {tr : List Ev} {s : St} (h : Exec step (init n) tr s) (ha : s.aborted = false)
    (h1 : s.flag = 1) : ∃ t a s' es, a ≠ .fault ∧ step s (t, a) = some (s', es) ∧
      ∃ pc, s.ths[t]? = some pc ∧ pc.crit = true := by
  obtain ⟨p, _, P⟩ := exec_inv h
  have hr := P.rel
  cases p with
  | fresh => simp only [Rel] at hr; omega
  | complete k => simp only [Rel] at hr; omega
  | running t =>
    obtain ⟨pc, ht, hc⟩ := P.run t rfl
    cases pc <;> simp only [PC.crit, Bool.false_eq_true] at hc
    case construct =>
      exact ⟨t, .addr 1, _, _, by simp, by simp only [step, ht, ha, if_neg (show ¬ (1 : Nat) = 0 by omega)]; rfl, _, ht, rfl⟩
    case tls => exact ⟨t, .go, _, _, by simp, by simp only [step, ht, ha]; rfl, _, ht, rfl⟩
    case publish => exact ⟨t, .go, _, _, by simp, by simp only [step, ht, ha]; rfl, _, ht, rfl⟩

/-- Two threads; the second one waits while the first one constructs the manager. -/
def demo : List (Nat × Act) :=
  [(0, .call), (0, .go), (0, .go), (1, .call), (1, .go), (1, .go), (0, .addr 9), (1, .go), (0, .go), (0, .go), (1, .go),
   (1, .go), (0, .go), (1, .call), (1, .go), (1, .go)]

example : ∃ s tr, Exec step (init 2) tr s ∧
    tr = [.began 0, .done 0 9, .proceeded 1 9, .proceeded 0 9, .proceeded 1 9] :=
  ⟨_, _, exec_of_run (ls := demo) rfl, by decide⟩

end TssOnce

end Verif
