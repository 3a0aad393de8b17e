import Verif.Proof.Endless
import Verif.Proof.AutoEventFutex
import Verif.Proof.AutoFutexEffort
import Verif.Spec.Starvation

/-!
# `auto_reset_event` over futexes: `wait()` returns if `post()` is called again and again and others stop to wait
-/

namespace Verif.AutoFutex

open Verif.Spec.Endless
open Verif.Spec.Effort (total total_set)

/-- Calls of waiting functions that have not returned, those not yet counted in the word twice. -/
def wt (th : Th) : Nat := if th.pc.inWait then (if th.pc.blocked then 1 else 2) else 0

def waits (s : St) : Nat := total wt s.ths

theorem waits_step {s s' : St} {t : Nat} {a : Act} {es : List Ev} (h : step s (t, a) = some (s', es)) (hc : Calm s a) :
    waits s' < waits s ∨ waits s' = waits s ∧ successes es = 0 ∧ (postsMade es = 0 → s'.word.val = s.word.val) := by
  have lt : ∀ {th th' : Th}, s.ths[t]? = some th → wt th' < wt th → total wt (s.ths.set t th') < total wt s.ths := fun {th th'} e1 e2 => by
    have := total_set (w := wt) (b := th') e1; omega
  have eq : ∀ {th th' : Th}, s.ths[t]? = some th → wt th' = wt th → total wt (s.ths.set t th') = total wt s.ths := fun {th th'} e1 e2 => by
    have := total_set (w := wt) (b := th') e1; omega
  have two : ∀ {j : Nat} {k : Kind} {v v' : View}, s.ths[j]? = some ⟨.asleep k, v⟩ → s.ths[t]? = some ⟨.postSignal, v'⟩ →
      total wt ((s.ths.set t ⟨.idle, v'⟩).set j ⟨.reload k, v⟩) = total wt s.ths := fun {j k v v'} e1 e2 => by
    have hne : t ≠ j := by rintro rfl; rw [e1] at e2; cases e2
    have c1 := total_set (w := wt) (b := ⟨.idle, v'⟩) e2
    have c2 := total_set (w := wt) (l := s.ths.set t ⟨.idle, v'⟩) (i := j) (b := ⟨.reload k, v⟩) (by rw [get_set_ne hne]; exact e1)
    simp only [wt, PC.inWait, PC.blocked, if_true, Bool.false_eq_true, if_false] at c1 c2
    omega
  cases hth : s.ths[t]? with
  | none => simp [step, hth] at h
  | some th =>
  obtain ⟨pc, v⟩ := th
  cases a
  all_goals first | exact absurd hc id | skip
  all_goals cases pc
  all_goals try (rename_i op; cases op)
  all_goals simp only [step, hth, reduceCtorEq] at h
  all_goals repeat' (split at h)
  all_goals first
    | contradiction
    | (simp only [reduceCtorEq] at h; done)
    | (cases hc; done)
    | (obtain ⟨rfl, rfl⟩ := Prod.mk.inj (Option.some.inj h))
  all_goals first
    | (refine .inl (lt hth ?_); simp [wt, PC.inWait, PC.blocked]; done)
    | (refine .inr ⟨eq hth rfl, rfl, fun e => ?_⟩; simp [postsMade, isPosted] at e; done)
    | (refine .inr ⟨eq hth rfl, rfl, fun e => ?_⟩; rfl)
    | (rename_i hj; exact .inr ⟨two hj hth, rfl, fun _ => rfl⟩)

/-- Steps of others leave a thread alone, unless it is asleep. -/
theorem other {s s' : St} {u t : Nat} {a : Act} {es : List Ev} {th : Th} (h : step s (u, a) = some (s', es)) (hu : u ≠ t)
    (ht : s.ths[t]? = some th) : s'.ths[t]? = some th ∨ ∃ k, th.pc = .asleep k ∧ s'.ths[t]? = some ⟨.reload k, th.view⟩ := by
  cases hth : s.ths[u]? with
  | none => simp [step, hth] at h
  | some x =>
  obtain ⟨pc, v⟩ := x
  cases a
  case' call op => cases op
  all_goals cases pc
  all_goals simp only [step, hth, reduceCtorEq] at h
  all_goals repeat' (split at h)
  all_goals first
    | contradiction
    | (simp only [reduceCtorEq] at h; done)
    | (obtain ⟨rfl, rfl⟩ := Prod.mk.inj (Option.some.inj h))
  all_goals first
    | (refine .inl ?_; simp only [get_set_ne hu, ht]; done)
    | skip
  all_goals
    rename_i j _ k' v' hj
    by_cases e : j = t
    · subst e
      cases hj.symm.trans ht
      refine .inr ⟨k', rfl, ?_⟩
      apply get_set_self (a := ⟨.asleep k', v'⟩)
      rw [get_set_ne hu]; exact hj
    · refine .inl ?_
      rw [get_set_ne e, get_set_ne hu, ht]

/-- Awake inside a waiting function. -/
def up (pc : PC) : Bool := pc.inWait && !pc.isAsleep

/-- How many steps a wait is from taking a post, if the word stays `w`. -/
def rank (w : UInt32) : PC → Nat
  | .toLoop old => if old = w then 1 else 2
  | .toLoad => 2
  | .cas _ old => if old = w then 3 else 6
  | .waitTop _ old => if old = w then 4 else 7
  | .reload _ => 4
  | .sleepCall _ _ => 5
  | .add _ => 7
  | .tryLoop _ old => if old = w then 8 else 9
  | .tryLoad _ => 10
  | _ => 0

theorem up_ready {s : St} {t : Nat} {th : Th} (ht : s.ths[t]? = some th) (hu : up th.pc = true) : Ready step Next s t := by
  obtain ⟨pc, v⟩ := th
  cases pc
  all_goals first | (cases hu; done) | skip
  all_goals first
    | (refine ⟨.go, ?_⟩; simp only [step, ht]; (repeat' split) <;> exact ⟨_, trivial, rfl⟩)
    | (refine ⟨.load s.word.val, ?_⟩; simp only [step, ht]; (repeat' split) <;> exact ⟨_, rfl, rfl⟩)

/-- A wait comes nearer to taking a post, if there is one and the word does not change. -/
theorem up_step {s s' : St} {t : Nat} {a : Act} {es : List Ev} {th : Th} (I : SInv s) (h : step s (t, a) = some (s', es)) (hc : Calm s a)
    (hp : 0 < P s.word.val) (hw : waits s' = waits s) (ht : s.ths[t]? = some th) (hu : up th.pc = true) :
    ∃ th', s'.ths[t]? = some th' ∧ up th'.pc = true ∧ rank s.word.val th'.pc < rank s.word.val th.pc := by
  have lt : ∀ {th' : Th}, wt th' < wt th → total wt (s.ths.set t th') ≠ total wt s.ths := fun {th'} e2 => by
    have := total_set (w := wt) (b := th') ht; omega
  have key : ∀ {th' : Th}, up th'.pc = true → rank s.word.val th'.pc < rank s.word.val th.pc →
      ∃ x, (s.ths.set t th')[t]? = some x ∧ up x.pc = true ∧ rank s.word.val x.pc < rank s.word.val th.pc :=
    fun e1 e2 => ⟨_, get_set_self ht, e1, e2⟩
  have hpos : posts s.word.val > 0 := posts_pos.mpr hp
  have hno : ∀ k v, th ≠ ⟨.sleepCall k s.word.val, v⟩ := by
    rintro k v rfl
    have h1 := I.loc t _ ht
    have h2 := I.waiters
    have h3 := countP_pos_of_get (p := Th.blocked) ht rfl
    rcases h1 with h1 | h1 <;> omega
  obtain ⟨pc, v⟩ := th
  cases a
  all_goals first | exact absurd hc id | skip
  all_goals cases pc
  all_goals first | (cases hu; done) | skip
  all_goals simp only [step, ht, reduceCtorEq] at h
  all_goals repeat' (split at h)
  all_goals first
    | contradiction
    | (simp only [reduceCtorEq] at h; done)
    | (obtain ⟨rfl, rfl⟩ := Prod.mk.inj (Option.some.inj h))
  all_goals first
    | (refine absurd hw (lt ?_); simp [wt, PC.inWait, PC.blocked]; done)
    | (refine key rfl ?_; simp [rank]; done)
    | (subst_vars; exact absurd rfl (hno _ _))
    | (refine key rfl ?_; simp only [rank]; (repeat' split) <;> first | omega | (exfalso; simp_all; done))
    | (cases (show _ = s.word.val from hc); first | (refine key rfl ?_; simp [rank]; done) | contradiction)

theorem place_cases {pc : PC} (h : waitPlace pc = true) : pc = .tryLoad .wait ∨ pc = .add .wait ∨ pc = .asleep .wait ∨ pc = .reload .wait ∨
    ∃ w, pc = .tryLoop .wait w ∨ pc = .waitTop .wait w ∨ pc = .sleepCall .wait w ∨ pc = .cas .wait w := by
  unfold waitPlace at h
  split at h
  all_goals simp_all

/-- `wait()` goes on until it returns. -/
theorem stays_in {s s' : St} {u t : Nat} {a : Act} {es : List Ev} (h : step s (u, a) = some (s', es)) (hi : InWait t s)
    (he : .waitDone t ∉ es) : InWait t s' := by
  obtain ⟨⟨pc, v⟩, ht, hp⟩ := hi
  by_cases hu : u = t
  · subst hu
    have key : ∀ {th' : Th} {w : Loc UInt32} {f : Nat}, waitPlace th'.pc = true → InWait u ⟨w, s.ths.set u th', f⟩ := fun e => ⟨_, get_set_self ht, e⟩
    rcases place_cases hp with rfl | rfl | rfl | rfl | ⟨w, rfl | rfl | rfl | rfl⟩ <;> cases a
    all_goals simp only [step, ht, reduceCtorEq] at h
    all_goals repeat' (split at h)
    all_goals first
      | contradiction
      | (simp only [reduceCtorEq] at h; done)
      | (obtain ⟨rfl, rfl⟩ := Prod.mk.inj (Option.some.inj h))
    all_goals first
      | exact key rfl
      | exact absurd List.mem_cons_self he
  · rcases other h hu ht with e | ⟨k, rfl, e⟩
    · exact ⟨_, e, hp⟩
    · refine ⟨_, e, ?_⟩
      cases k <;> first | rfl | cases hp

theorem wait_ends {n : Nat} (hn : n ≤ 1023) {st : Nat → St} {lbl : Nat → Nat × Act} {ev : Nat → List Ev} (h : Endless step (init n) st lbl ev)
    (hs : Scheduled step Next st lbl) {t i : Nat} (hi : InWait t (st i)) {k : Nat} (hcalm : ∀ j, k ≤ j → Calm (st j) (lbl j).2)
    (hpost : Often fun j => (lbl j).2 = .call .post) : ∃ j, i ≤ j ∧ .waitDone t ∈ ev j := by
  refine Classical.byContradiction fun hno => ?_
  have inv : ∀ j, SInv (st j) := fun j => by
    obtain ⟨tr, hr⟩ := h.reachable j
    exact (exec_good (sinv_init hn) hr).1
  have stay := from_on (p := fun j => InWait t (st j)) hi fun j hj hin => stays_in (h.next j) hin fun he => hno ⟨j, hj, he⟩
  -- from some time on no wait ends and none registers
  obtain ⟨m, hm, hwaits⟩ := settles (f := fun j => waits (st j)) (i := max i k) fun j hj => by
    rcases waits_step (h.next j) (hcalm j (by omega)) with e | ⟨e, _⟩ <;> omega
  have quiet : ∀ j, m ≤ j → waits (st (j + 1)) = waits (st j) ∧ successes (ev j) = 0 ∧ (postsMade (ev j) = 0 → (st (j + 1)).word.val = (st j).word.val) :=
    fun j hj => by
      have e1 : waits (st (j + 1)) = waits (st m) := hwaits (j + 1) (by omega)
      have e2 : waits (st j) = waits (st m) := hwaits j hj
      rcases waits_step (h.next j) (hcalm j (by omega)) with e | e
      · omega
      · exact e
  have bal : ∀ j, m ≤ j → P (st (j + 1)).word.val = P (st j).word.val + postsMade (ev j) := fun j hj => by
    have := (step_good (inv j) (h.next j)).2.posts
    have := (quiet j hj).2.1
    omega
  -- from some time on the word does not change
  have top : ∀ j, P (st j).word.val ≤ 1024 := fun j => by
    have h1 := (inv j).bound
    have h2 := (inv j).len
    have h3 : (st j).ths.countP Th.blocked ≤ (st j).ths.length := List.countP_le_length
    omega
  obtain ⟨m', hm', hposts⟩ := settles (f := fun j => 1024 - P (st j).word.val) (i := m) fun j hj => by have := bal j hj; omega
  have noPost : ∀ j, m' ≤ j → postsMade (ev j) = 0 := fun j hj => by
    have e1 : 1024 - P (st (j + 1)).word.val = 1024 - P (st m').word.val := hposts (j + 1) (by omega)
    have e2 : 1024 - P (st j).word.val = 1024 - P (st m').word.val := hposts j hj
    have := bal j (by omega)
    have := top j
    have := top (j + 1)
    omega
  have word := from_on (p := fun j => (st j).word.val = (st m').word.val) (i := m') rfl fun j hj e =>
    ((quiet j (by omega)).2.2 (noPost j hj)).trans e
  -- the next post leaves the event signalled
  have hset : 0 < P (st m').word.val := by
    obtain ⟨j, hj, hl⟩ := hpost m'
    have hst := h.next j
    rw [show lbl j = ((lbl j).1, .call .post) by rw [← hl]] at hst
    obtain ⟨v, hv⟩ : ∃ v, (st (j + 1)).ths[(lbl j).1]? = some ⟨.postLoad, v⟩ := by
      cases ht : (st j).ths[(lbl j).1]? with
      | none => simp [step, ht] at hst
      | some th =>
        obtain ⟨pc, v⟩ := th
        cases pc <;> simp only [step, ht, reduceCtorEq] at hst
        obtain ⟨e, _⟩ := Prod.mk.inj (Option.some.inj hst)
        exact ⟨v, by rw [← e]; exact get_set_self ht⟩
    obtain ⟨j1, hj1, hq1, hl1⟩ := hs.steps (lbl j).1 (j + 1) (fun i => (st i).ths[(lbl j).1]? = some ⟨.postLoad, v⟩) hv
      (fun i _ hq => ⟨.load (st i).word.val, by simp only [step, hq]; exact ⟨_, rfl, rfl⟩⟩)
      (fun i _ hq hne => by
        rcases other (h.next i) hne hq with e | ⟨_, e, _⟩
        · exact e
        · cases e)
    have hv1 : (st (j1 + 1)).ths[(lbl j).1]? = some ⟨.postLoop (st m').word.val, v⟩ := by
      have hst1 := h.next j1
      have hc1 := hcalm j1 (by omega)
      have w1 := word j1 (by omega)
      rw [show lbl j1 = ((lbl j).1, (lbl j1).2) by rw [← hl1]] at hst1
      generalize (lbl j1).2 = a at hst1 hc1
      cases a <;> simp only [step, hq1, reduceCtorEq] at hst1
      obtain ⟨e, _⟩ := Prod.mk.inj (Option.some.inj hst1)
      cases (show _ = (st j1).word.val from hc1)
      rw [← e, ← w1]; exact get_set_self hq1
    obtain ⟨j2, hj2, hq2, hl2⟩ := hs.steps (lbl j).1 (j1 + 1) (fun i => (st i).ths[(lbl j).1]? = some ⟨.postLoop (st m').word.val, v⟩) hv1
      (fun i _ hq => ⟨.go, by simp only [step, hq]; (repeat' split) <;> exact ⟨_, trivial, rfl⟩⟩)
      (fun i _ hq hne => by
        rcases other (h.next i) hne hq with e | ⟨_, e, _⟩
        · exact e
        · cases e)
    have hst2 := h.next j2
    have hc2 := hcalm j2 (by omega)
    have w2 := word j2 (by omega)
    have np := noPost j2 (by omega)
    rw [show lbl j2 = ((lbl j).1, (lbl j2).2) by rw [← hl2]] at hst2
    generalize (lbl j2).2 = a at hst2 hc2
    refine Nat.pos_of_ne_zero fun hz => ?_
    have hge : waiters (st m').word.val ≥ posts (st m').word.val := waiters_ge.mpr (by omega)
    cases a <;> first | (exact absurd hc2 id) | simp only [step, hq2, reduceCtorEq] at hst2
    rw [if_pos hge, if_pos w2] at hst2
    split at hst2 <;> obtain ⟨_, e⟩ := Prod.mk.inj (Option.some.inj hst2) <;> rw [← e] at np <;> simp [postsMade, isPosted] at np
  -- so nobody is awake in a wait
  have asleep : ∀ r j (u : Nat) (th : Th), m' ≤ j → (st j).ths[u]? = some th → up th.pc = true → rank (st m').word.val th.pc = r → False := by
    intro r
    induction r using Nat.strongRecOn with
    | _ r ih =>
      intro j u th hj hu hup hr
      obtain ⟨j1, hj1, hq, hl⟩ := hs.steps u j (fun i => (st i).ths[u]? = some th) hu (fun i _ hq => up_ready hq hup)
        (fun i _ hq hne => by
          rcases other (h.next i) hne hq with e | ⟨_, e, _⟩
          · exact e
          · rw [e] at hup; cases hup)
      have w1 := word j1 (by omega)
      have hst := h.next j1
      rw [show lbl j1 = (u, (lbl j1).2) by rw [← hl]] at hst
      obtain ⟨th', e1, e2, e3⟩ := up_step (inv j1) hst (hcalm j1 (by omega)) (by rw [w1]; exact hset) (quiet j1 (by omega)).1 hq hup
      rw [w1] at e3
      exact ih _ (by omega) (j1 + 1) u th' (by omega) e1 e2 rfl
  have sleeps : ∀ j, m' ≤ j → ∃ v, (st j).ths[t]? = some ⟨.asleep .wait, v⟩ := fun j hj => by
    obtain ⟨⟨pc, v⟩, ht, hp⟩ := stay j (by omega)
    rcases place_cases hp with rfl | rfl | rfl | rfl | ⟨w, rfl | rfl | rfl | rfl⟩ <;> first
      | exact ⟨v, ht⟩
      | exact (asleep _ j t _ hj ht rfl rfl).elim
  -- and the post that will wake somebody does not come to it
  obtain ⟨v, ht⟩ := sleeps m' (Nat.le_refl _)
  have hw := (inv m').wake (countP_pos_of_get ht rfl)
  have haw : (st m').ths.countP Th.awake = 0 := Nat.eq_zero_of_not_pos fun hpos => by
    obtain ⟨u, ⟨pc, v⟩, hu, hp⟩ := exists_of_countP_pos hpos
    refine asleep _ m' u _ (Nat.le_refl _) hu ?_ rfl
    cases pc <;> first | rfl | cases hp
  obtain ⟨u, ⟨pc, v'⟩, hu, hp⟩ := exists_of_countP_pos (p := Th.signalling) (l := (st m').ths) (by omega)
  obtain rfl : pc = .postSignal := by cases pc <;> first | rfl | cases hp
  obtain ⟨j, hj, hq, hl⟩ := hs.steps u m' (fun i => (st i).ths[u]? = some ⟨.postSignal, v'⟩) hu
    (fun i hi' hq => by
      obtain ⟨v, hv⟩ := sleeps i hi'
      exact ⟨.wake t, by simp only [step, hq, hv]; exact ⟨_, trivial, rfl⟩⟩)
    (fun i _ hq hne => by
      rcases other (h.next i) hne hq with e | ⟨_, e, _⟩
      · exact e
      · cases e)
  have hst := h.next j
  obtain ⟨w, hsl⟩ := sleeps j hj
  rw [show lbl j = (u, (lbl j).2) by rw [← hl]] at hst
  generalize (lbl j).2 = a at hst
  cases a <;> simp only [step, hq, reduceCtorEq] at hst
  case wake q =>
    split at hst
    next x k v hx =>
      obtain ⟨e, _⟩ := Prod.mk.inj (Option.some.inj hst)
      refine asleep _ (j + 1) q ⟨.reload k, v⟩ (by omega) ?_ rfl rfl
      rw [← e]
      refine get_set_self (a := ⟨.asleep k, v⟩) ?_
      rw [get_set_ne]
      · exact hx
      · rintro rfl; rw [hx] at hq; cases hq
    next => cases hst
  · split at hst
    next hall =>
      have := List.all_eq_true.mp hall _ (List.mem_of_getElem? hsl)
      cases this
    next => cases hst

end Verif.AutoFutex
