import Verif.Proof.AutoEventSem

/-!
# C24-C26: auto_reset_event on top of a semaphore
-/

namespace Verif.AutoSem

open Verif.Atomic (Kind Op Ev One successes signalsCalled)

/-! ## C24: a post releases at most one waiter -/

/-- Completed successful waits never outnumber the posts. -/
theorem C24_at_most_one_per_post {n : Nat} {tr : List (Ev One)} {s : St} (h : Exec step (init n) tr s) :
    successes tr ≤ signalsCalled tr := by
  have := (inv_exec h).count
  have h0 : (init n).sem = 0 := rfl
  have h1 : (init n).ths.countP PC.won = 0 := countP_replicate_false rfl n
  have h2 : (init n).ths.countP PC.posts = 0 := countP_replicate_false rfl n
  omega

/-- `m_state` does not leave the range of `int32_t` with fewer than 2^31 - 1 threads and waits that failed or threw. -/
theorem C24_state_range {n : Nat} {tr : List (Ev One)} {s : St} (h : Exec step (init n) tr s)
    (hb : failures tr + thrown tr + n < 2 ^ 31 - 1) : -2 ^ 31 ≤ s.state ∧ s.state < 2 ^ 31 := by
  have hlen : s.ths.length = n := by
    refine h.invariant' (fun s => s.ths.length = n) (by simp [init]) ?_
    intro s l s' es hl hs
    obtain ⟨t, a⟩ := l
    unfold step at hs
    simp only at hs
    split at hs
    · cases hs
    · split at hs <;> (try split at hs) <;> (try split at hs) <;> first | (cases hs; done) | (cases hs; simpa using hl)
  have h1 := (inv_exec h).state
  have h2 := low_exec h
  have h3 : s.ths.countP PC.registered ≤ s.ths.length := List.countP_le_length
  have h4 : s.ths.countP PC.lost ≤ s.ths.length := List.countP_le_length
  simp only [Low] at h2
  omega

/-- Two waiters, one of them blocked while the post arrives; one post, one success. -/
def demo : List (Nat × Act) :=
  [(0, .call (.acq .wait)), (0, .go), (1, .call (.acq .timed)), (1, .go),
   (2, .call (.sig .post)), (2, .go), (2, .go), (2, .go), (2, .go), (1, .go), (1, .go)]

example : ∃ tr s, Exec step (init 3) tr s ∧ successes tr = 1 ∧ signalsCalled tr = 1 ∧ s.state = 1 ∧ s.sem = 0 ∧
    s.ths[0]? = some (.wSem .wait) := ⟨_, _, exec_of_run (ls := demo) rfl, rfl, rfl, rfl, rfl, rfl⟩

/-! ## C25: no lost wake-up -/

/-- Steps threads take by themselves, as opposed to calls, timeouts, exceptions and spurious failures of the compare-exchange. -/
def Act.internal : Act → Bool
  | .go => true
  | _ => false

/-- A thread is blocked and a permit exists or is about to be posted: some thread can take a step. -/
theorem C25_no_lost_wakeup {s : St} {t : Nat} {k : Kind} (ht : s.ths[t]? = some (.wSem k))
    (hp : 0 < s.sem + s.ths.countP PC.posting) :
    ∃ (j : Nat) (s' : St) (es : List (Ev One)), step s (j, .go) = some (s', es) := by
  by_cases h : 0 < s.sem
  · exact ⟨t, by simp [step, ht, h]⟩
  · obtain ⟨j, pc, hj, hpc⟩ := exists_of_countP_pos (p := PC.posting) (l := s.ths) (by omega)
    cases pc with
    | pSem => exact ⟨j, by simp [step, hj]⟩
    | _ => cases hpc

/-- A post gives up (makes no permit) only at an instant at which the permits that exist or are about to be posted
outnumber the registered waiters, i.e. when every blocked thread already has a permit on its way. -/
theorem C25_post_not_swallowed {n : Nat} {tr es : List (Ev One)} {s s' : St} (h : Exec step (init n) tr s) {t : Nat} {a : Act}
    {pc : PC} (ht : s.ths[t]? = some pc) (hp : pc.posts = true) (hs : step s (t, a) = some (s', es))
    (hgive : s'.ths[t]? = some (.leave (.sig .post) true)) :
    pc = .pSem ∧ s'.sem = s.sem + 1 ∨ s.ths.countP PC.registered < s.sem + s.ths.countP PC.posting := by
  have hstate := (inv_exec h).state
  have hseen : ∀ (x : List PC), x = s.ths.set t (seen s.state) → x[t]? = some (.leave (.sig .post) true) → s.state < 0 := by
    rintro x rfl hx
    rw [get_set_self ht] at hx
    unfold seen at hx
    split at hx
    · cases hx
    · omega
  cases pc with
  | pLoad =>
    cases a with
    | go =>
      simp only [step, ht, Option.some.injEq, Prod.mk.injEq] at hs
      obtain ⟨rfl, rfl⟩ := hs
      have := hseen _ rfl hgive
      right; omega
    | _ => simp [step, ht] at hs
  | pCas old =>
    cases a with
    | go =>
      simp only [step, ht] at hs
      split at hs
      · cases hs
        simp only [get_set_self ht] at hgive
        cases hgive
      · simp only [Option.some.injEq, Prod.mk.injEq] at hs
        obtain ⟨rfl, rfl⟩ := hs
        have := hseen _ rfl hgive
        right; omega
    | spurious =>
      simp only [step, ht, Option.some.injEq, Prod.mk.injEq] at hs
      obtain ⟨rfl, rfl⟩ := hs
      have := hseen _ rfl hgive
      right; omega
    | _ => simp [step, ht] at hs
  | pSem =>
    cases a with
    | go =>
      simp only [step, ht, Option.some.injEq, Prod.mk.injEq] at hs
      obtain ⟨rfl, rfl⟩ := hs
      exact .inl ⟨rfl, rfl⟩
    | _ => simp [step, ht] at hs
  | _ => cases hp

/-- Thread 2 posts the permit. -/
example : ∃ tr s s' es, Exec step (init 3) tr s ∧ s.ths[2]? = some .pSem ∧ PC.pSem.posts = true ∧ step s (2, .go) = some (s', es) ∧
    s'.ths[2]? = some (.leave (.sig .post) true) :=
  ⟨_, _, _, _, exec_of_run (r := (_, _)) (ls := demo.take 7) rfl, rfl, rfl, rfl, rfl⟩

def Quiescent (s : St) : Prop := ∀ t, step s (t, .go) = none

/-- Where no thread can take a step, every thread is outside or blocked; if one is blocked there is no permit, and the
next post, whoever makes it, posts one. -/
theorem C25_quiescent {n : Nat} {tr : List (Ev One)} {s : St} (h : Exec step (init n) tr s) (q : Quiescent s) :
    (∀ (t : Nat) pc, s.ths[t]? = some pc → pc = .idle ∨ pc = .wSem .wait ∨ pc = .wSem .timed) ∧
    ∀ (t : Nat) k, s.ths[t]? = some (.wSem k) → s.sem = 0 ∧
      ∀ p, s.ths[p]? = some .idle → ∃ s' es, runFrom step s
        [(p, .call (.sig .post)), (p, .go), (p, .go), (p, .go), (p, .go)] = some (s', es) ∧ s'.sem = 1 ∧
          s'.ths = s.ths := by
  have hpcs : ∀ (t : Nat) pc, s.ths[t]? = some pc → pc = .idle ∨ pc = .wSem .wait ∨ pc = .wSem .timed := by
    intro t pc ht
    have hq := q t
    cases pc with
    | idle => exact .inl rfl
    | wSem k =>
      cases k with
      | wait => exact .inr (.inl rfl)
      | timed => exact .inr (.inr rfl)
      | tryWait =>
        by_cases h0 : 0 < s.sem <;> simp [step, ht, h0] at hq
    | pCas old =>
      by_cases h0 : s.state = old <;> simp [step, ht, h0] at hq
    | _ => simp [step, ht] at hq
  refine ⟨hpcs, ?_⟩
  intro t k ht
  have hsem : s.sem = 0 := by
    have hq := q t
    by_cases h0 : 0 < s.sem
    · simp [step, ht, h0] at hq
    · omega
  refine ⟨hsem, ?_⟩
  intro p hp
  have hpost : s.ths.countP PC.posting = 0 := by
    apply countP_eq_zero_of_forall
    intro i pc hi
    rcases hpcs i pc hi with rfl | rfl | rfl <;> rfl
  have hreg := countP_pos_of_get (p := PC.registered) ht rfl
  have hstate := (inv_exec h).state
  have hpos : s.state ≥ 0 := by omega
  have hlt : p < s.ths.length := (List.getElem?_eq_some_iff.mp hp).1
  refine ⟨⟨s.state - 1, 1, s.ths⟩, ?_⟩
  have hg : s.ths[p] = .idle := (List.getElem?_eq_some_iff.mp hp).2
  have hback : s.ths.set p .idle = s.ths := by
    apply List.ext_getElem?
    intro i
    rw [List.getElem?_set]
    split
    · next hi => subst hi; simp [hlt, hg]
    · rfl
  simp [runFrom, step, hg, seen, hpos, hlt, hsem, hback]

/-! Internal runs end, also with the retry loop of the compare-exchange. -/

def PC.weight : PC → Nat
  | .idle => 0
  | .leave _ _ => 1
  | .wSub _ | .pSem => 2
  | .wSem _ | .pCas _ => 3
  | .wAdd _ | .pLoad => 4

def PC.stale (v : Int) : PC → Bool
  | .pCas old => decide (old ≠ v)
  | _ => false

/-- Upper bound on the number of internal steps. -/
def measure (s : St) : Nat := (s.ths.length + 1) * (s.ths.map PC.weight).sum + s.ths.countP (PC.stale s.state)

theorem sum_set {l : List PC} {t : Nat} {a b : PC} (h : l[t]? = some a) :
    ((l.set t b).map PC.weight).sum + a.weight = (l.map PC.weight).sum + b.weight := by
  induction l generalizing t with
  | nil => cases h
  | cons x l ih =>
    cases t with
    | zero => cases h; simp only [List.set_cons_zero, List.map_cons, List.sum_cons]; omega
    | succ t =>
      have := ih (t := t) (by simpa using h)
      simp only [List.set_cons_succ, List.map_cons, List.sum_cons]; omega

theorem measure_weight {s : St} {t : Nat} {pc pc' : PC} {st' : Int} {sem' : Nat} (ht : s.ths[t]? = some pc)
    (h : pc'.weight < pc.weight) : measure ⟨st', sem', s.ths.set t pc'⟩ < measure s := by
  have e := sum_set (b := pc') ht
  have c : (s.ths.set t pc').countP (PC.stale st') ≤ (s.ths.set t pc').length := List.countP_le_length
  simp only [measure, List.length_set] at c ⊢
  have e' : ((s.ths.set t pc').map PC.weight).sum + 1 ≤ (s.ths.map PC.weight).sum := by omega
  have m := Nat.mul_le_mul_left (s.ths.length + 1) e'
  rw [Nat.mul_add] at m
  omega

theorem measure_decreases {s s' : St} {t : Nat} {es : List (Ev One)} (h : step s (t, .go) = some (s', es)) :
    measure s' < measure s := by
  unfold step at h
  simp only at h
  split at h
  · cases h
  next pc ht =>
  have hw : (seen s.state).weight ≤ 3 := by unfold seen; split <;> simp [PC.weight]
  split at h
  · next heq => cases heq
  · next heq => cases heq
  · cases h; exact measure_weight ht (Nat.lt_of_le_of_lt hw (by decide))
  · next old _ =>
    split at h
    · cases h; exact measure_weight ht (by simp only [PC.weight]; omega)
    · next hne =>
      cases h
      by_cases hv : s.state ≥ 0
      · have hs : seen s.state = .pCas s.state := by simp [seen, hv]
        rw [hs]
        have e := sum_set (b := .pCas s.state) ht
        have c := countP_set (p := PC.stale s.state) (b := .pCas s.state) ht
        have h1 : PC.stale s.state (.pCas s.state) = false := by simp [PC.stale]
        have h2 : PC.stale s.state (.pCas old) = true := by simp [PC.stale]; omega
        rw [h1, h2] at c
        simp only [PC.weight, b2n_true, b2n_false] at e c
        have e' : ((s.ths.set t (.pCas s.state)).map PC.weight).sum = (s.ths.map PC.weight).sum := by omega
        simp only [measure, List.length_set, e']
        omega
      · have hs : seen s.state = .leave (.sig .post) true := by simp [seen, hv]
        rw [hs]
        exact measure_weight ht (by simp only [PC.weight]; omega)
  · next heq => cases heq
  · cases h; exact measure_weight ht (by simp only [PC.weight]; omega)
  · cases h; exact measure_weight ht (by simp only [PC.weight]; omega)
  · split at h
    · cases h; exact measure_weight ht (by simp only [PC.weight]; omega)
    · split at h
      · cases h; exact measure_weight ht (by simp only [PC.weight]; omega)
      · cases h
  · next heq => cases heq
  · next heq => cases heq
  · cases h; exact measure_weight ht (by simp only [PC.weight]; omega)
  · cases h; exact measure_weight ht (by simp only [PC.weight]; omega)
  · cases h

/-- A run of internal steps. -/
inductive Internal : St → Nat → St → Prop
  | refl (s : St) : Internal s 0 s
  | step {s s' s'' : St} {k t : Nat} {es : List (Ev One)} (h : Internal s k s')
      (hs : step s' (t, .go) = some (s'', es)) : Internal s (k + 1) s''

/-- Without new calls, timeouts and spurious failures, every run is finite. -/
theorem C25_runs_end {s s' : St} {k : Nat} (h : Internal s k s') : k ≤ measure s := by
  have : k + measure s' ≤ measure s := by
    induction h with
    | refl => omega
    | step h hs ih => have := measure_decreases hs; omega
  omega

/-- The hypotheses of the theorems above hold in `demo`: after 7 steps thread 2 is about to post the permit; at the end
thread 0 is blocked and nobody can step. -/
example : ∃ tr s, Exec step (init 3) tr s ∧ s.ths[0]? = some (.wSem .wait) ∧ 0 < s.sem + s.ths.countP PC.posting :=
  ⟨_, _, exec_of_run (ls := demo.take 7) rfl, rfl, by decide⟩

example : ∃ tr s, Exec step (init 3) tr s ∧ s.ths[0]? = some (.wSem .wait) ∧ s.ths[2]? = some .idle ∧ Quiescent s := by
  refine ⟨_, _, exec_of_run (ls := demo) rfl, rfl, rfl, ?_⟩
  intro t
  match t with
  | 0 => rfl
  | 1 => rfl
  | 2 => rfl
  | t + 3 => rfl

/-! ## C26: how many posts an event remembers -/

/-- Whenever no call is in progress, at most `1 + f` further waits can succeed before the next post, where `f` is the
number of waits that have failed or thrown so far: one, if no wait ever did. -/
theorem C26_remembers_partial {n : Nat} {tr₁ tr₂ : List (Ev One)} {s₁ s₂ : St} (h₁ : Exec step (init n) tr₁ s₁)
    (hidle : ∀ (t : Nat) pc, s₁.ths[t]? = some pc → pc = .idle) (h₂ : Exec step s₁ tr₂ s₂)
    (hnopost : signalsCalled tr₂ = 0) : successes tr₂ ≤ 1 + failures tr₁ + thrown tr₁ := by
  have hz : ∀ (p : PC → Bool), p .idle = false → s₁.ths.countP p = 0 := by
    intro p hp
    apply countP_eq_zero_of_forall
    intro t pc hpc
    rw [hidle t pc hpc]
    exact hp
  have e1 := (inv_exec h₁).state
  have e2 := low_exec h₁
  have e3 := (inv_from (inv_exec h₁) h₂).count
  simp only [Low, hz _ (rfl : PC.registered .idle = false), hz _ (rfl : PC.posting .idle = false),
    hz _ (rfl : PC.lost .idle = false), hz _ (rfl : PC.won .idle = false), hz _ (rfl : PC.posts .idle = false)] at e1 e2 e3
  omega

theorem C26_at_most_one_partial {n : Nat} {tr₁ tr₂ : List (Ev One)} {s₁ s₂ : St} (h₁ : Exec step (init n) tr₁ s₁)
    (hf : failures tr₁ = 0) (hth : thrown tr₁ = 0)
    (hidle : ∀ (t : Nat) pc, s₁.ths[t]? = some pc → pc = .idle) (h₂ : Exec step s₁ tr₂ s₂)
    (hnopost : signalsCalled tr₂ = 0) : successes tr₂ ≤ 1 := by
  have := C26_remembers_partial h₁ hidle h₂ hnopost
  omega

/-- A failing `try_wait` of thread 0 overlaps two posts of thread 1: both are remembered. -/
def leak : List (Nat × Act) :=
  [(0, .call (.acq .tryWait)), (0, .go), (0, .go),
   (1, .call (.sig .post)), (1, .go), (1, .go), (1, .go), (1, .go),
   (1, .call (.sig .post)), (1, .go), (1, .go), (1, .go), (1, .go),
   (0, .go), (0, .go)]

def twoWaits : List (Nat × Act) :=
  [(0, .call (.acq .wait)), (0, .go), (0, .go), (0, .go), (1, .call (.acq .wait)), (1, .go), (1, .go), (1, .go)]

/-- The contract fails: after a failed `try_wait`, with no call in progress, two waits succeed without a further post. -/
theorem C26_refuted : ∃ tr₁ tr₂ s₁ s₂, Exec step (init 2) tr₁ s₁ ∧ s₁.ths = [.idle, .idle] ∧ Exec step s₁ tr₂ s₂ ∧
    signalsCalled tr₂ = 0 ∧ successes tr₂ = 2 :=
  ⟨_, _, _, _, exec_of_run (ls := leak) rfl, rfl, exec_of_run (ls := twoWaits) rfl, rfl, rfl⟩

/-- **C78**, refuted: a `wait` of thread 0 throws; afterwards two posts are remembered, although no wait has failed. -/
theorem C78_refuted : ∃ tr₁ tr₂ s₁ s₂, Exec step (init 2) tr₁ s₁ ∧
    tr₁ = [.called 0 (.acq .wait), .threw 0 (.acq .wait), .called 1 (.sig .post), .ret 1 (.sig .post) true, .called 1 (.sig .post),
      .ret 1 (.sig .post) true] ∧ s₁.ths = [.idle, .idle] ∧ Exec step s₁ tr₂ s₂ ∧
    signalsCalled tr₂ = 0 ∧ successes tr₂ = 2 :=
  ⟨_, _, _, _, exec_of_run (ls := [(0, .call (.acq .wait)), (0, .go), (0, .fail), (1, .call (.sig .post)), (1, .go), (1, .go),
    (1, .go), (1, .go), (1, .call (.sig .post)), (1, .go), (1, .go), (1, .go), (1, .go)]) rfl, rfl, rfl,
    exec_of_run (ls := twoWaits) rfl, rfl, rfl⟩

/-- The bound of `C26_remembers_partial` is met by that execution, and its hypotheses. -/
example : ∃ tr₁ s₁, Exec step (init 2) tr₁ s₁ ∧ s₁.ths = [.idle, .idle] ∧ failures tr₁ = 1 ∧ thrown tr₁ = 0 :=
  ⟨_, _, exec_of_run (ls := leak) rfl, rfl, rfl, rfl⟩

/-- Without the failing `try_wait` two posts are remembered as one. -/
example : ∃ tr₁ s₁, Exec step (init 2) tr₁ s₁ ∧ s₁.ths = [.idle, .idle] ∧ failures tr₁ = 0 ∧ signalsCalled tr₁ = 2 ∧ s₁.sem = 1 :=
  ⟨_, _, exec_of_run (ls := [(1, .call (.sig .post)), (1, .go), (1, .go), (1, .go), (1, .go),
   (1, .call (.sig .post)), (1, .go), (1, .go)]) rfl, rfl, rfl, rfl, rfl⟩

end Verif.AutoSem
