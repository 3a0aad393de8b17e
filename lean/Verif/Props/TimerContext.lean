import Verif.Model.TimerContext
import Verif.Base.Run

/-! C74: the timer of a thread. -/

namespace Verif.TimerContext

/-- How often `h` of kind `r` was obtained. -/
def acquisitions (r : Res) (h : Nat) (tr : List Ev) : Nat := tr.countP (· == .acquired r h)
/-- How often `h` of kind `r` was given back. -/
def releases (r : Res) (h : Nat) (tr : List Ev) : Nat := tr.countP (· == .released r h)

/-- The context of a thread is complete and owns what is open. -/
structure Inv (tr : List Ev) (s : St) : Prop where
  bal : ∀ r h, acquisitions r h tr = releases r h tr + s.opened.count (r, h)
  live : s.ended = false → s.opened = match s.tls with
    | none => []
    | some c => [(.timer, c.timer), (.wait, c.wait), (.thread, c.thread), (.mem, c.addr)]
  dead : s.ended = true → s.opened = []
  ok : ∀ c, s.tls = some c → c.timer ≠ 0 ∧ c.thread ≠ 0 ∧ c.wait ≠ 0
  ret : ∀ h, Ev.returned h ∈ tr → ∃ c, s.tls = some c ∧ c.timer = h

theorem destroy_full {c : Ctx} (h1 : c.timer ≠ 0) (h2 : c.thread ≠ 0) (h3 : c.wait ≠ 0) :
    destroy c = [.released .wait c.wait, .released .thread c.thread, .released .timer c.timer, .released .mem c.addr] := by
  simp [destroy, h1, h2, h3]

theorem fresh_thread {os : Os} {o : List (Res × Nat)} (h : os.fresh o = true) :
    (∀ x, os.thread = some x → x ≠ 0) ∧ (∀ x, os.wait = some x → x ≠ 0) ∧ (∀ x, os.timer = some x → x ≠ 0) := by
  simp only [Os.fresh, List.all_cons, List.all_nil, Bool.and_true, Bool.and_eq_true] at h
  obtain ⟨_, h2, h3, h4⟩ := h
  refine ⟨?_, ?_, ?_⟩
  · rintro x hx rfl; simp [hx] at h2
  · rintro x hx rfl; simp [hx] at h3
  · rintro x hx rfl; simp [hx] at h4

/-- The bookkeeping of `opened` agrees with the events, as long as nothing is given back that is not open. -/
theorem create_none {v : Nat} {os : Os} {es : List Ev} (hf : os.fresh [] = true) (h : create v os = (none, es)) :
    es.foldl opening [] = [] ∧ (∀ r x, acquisitions r x es = releases r x es) ∧ ∀ x, Ev.returned x ∉ es := by
  obtain ⟨f1, f2, f3⟩ := fresh_thread hf
  unfold create at h
  split at h
  · cases h; simp [acquisitions, releases]
  next a ha =>
  simp only at h
  split at h
  · cases h
    refine ⟨by simp [destroy, ctx0, opening], ?_, by simp [destroy, ctx0]⟩
    intro r x
    simp [destroy, ctx0, acquisitions, releases, List.countP_cons]
  next th hth =>
  split at h
  · cases h
    have := f1 th hth
    refine ⟨by simp [destroy, ctx0, opening, this], ?_, by simp [destroy, ctx0, this]⟩
    intro r x
    simp [destroy, ctx0, acquisitions, releases, List.countP_cons, this]
    omega
  next w hw =>
  split at h
  · cases h
    have h1 := f1 th hth
    have h2 := f2 w hw
    refine ⟨by simp [destroy, ctx0, opening, h1, h2], ?_, by simp [destroy, ctx0, h1, h2]⟩
    intro r x
    simp [destroy, ctx0, acquisitions, releases, List.countP_cons, h1, h2]
    omega
  next tm htm =>
  split at h
  · cases h
  · cases h
    have h1 := f1 th hth
    have h2 := f2 w hw
    have h3 := f3 tm htm
    refine ⟨by simp [destroy, ctx0, opening, h1, h2, h3], ?_, by simp [destroy, ctx0, h1, h2, h3]⟩
    intro r x
    simp [destroy, ctx0, acquisitions, releases, List.countP_cons, h1, h2, h3]
    omega

theorem create_some {v : Nat} {os : Os} {es : List Ev} {c : Ctx} (hf : os.fresh [] = true)
    (h : create v os = (some c, es)) :
    es = [.acquired .mem c.addr, .acquired .thread c.thread, .acquired .wait c.wait, .acquired .timer c.timer] ∧
      c.timer ≠ 0 ∧ c.thread ≠ 0 ∧ c.wait ≠ 0 := by
  obtain ⟨f1, f2, f3⟩ := fresh_thread hf
  unfold create at h
  split at h
  · cases h
  next a ha =>
  simp only at h
  split at h
  · cases h
  next th hth =>
  split at h
  · cases h
  next w hw =>
  split at h
  · cases h
  next tm htm =>
  split at h
  · cases h
    exact ⟨rfl, f3 _ htm, f1 _ hth, f2 _ hw⟩
  · cases h

theorem acq_append (r : Res) (h : Nat) (a b : List Ev) :
    acquisitions r h (a ++ b) = acquisitions r h a + acquisitions r h b := List.countP_append
theorem rel_append (r : Res) (h : Nat) (a b : List Ev) :
    releases r h (a ++ b) = releases r h a + releases r h b := List.countP_append

theorem inv_init : Inv [] init :=
  ⟨fun _ _ => rfl, fun _ => rfl, (fun h => nomatch h), (fun _ h => nomatch h), (fun _ h => nomatch h)⟩

theorem step_inv (tr : List Ev) (s : St) (a : Act) (s' : St) (es : List Ev) (I : Inv tr s)
    (h : step s a = some (s', es)) : Inv (tr ++ es) s' := by
  unfold step at h
  split at h
  · cases h
  next he =>
  have he : s.ended = false := by simpa using he
  have hl := I.live he
  split at h
  · next v os =>
    split at h
    · next c hc =>
      split at h
      · cases h
        refine ⟨?_, I.live, I.dead, I.ok, ?_⟩
        · intro r x
          rw [acq_append, rel_append, show acquisitions r x [Ev.returned c.timer] = 0 by simp [acquisitions],
            show releases r x [Ev.returned c.timer] = 0 by simp [releases]]
          exact I.bal r x
        · intro x hx
          rcases List.mem_append.mp hx with hx | hx
          · exact I.ret x hx
          · simp at hx; exact ⟨c, hc, hx.symm⟩
      · cases h
        refine ⟨?_, I.live, I.dead, I.ok, by simpa using I.ret⟩
        intro r x
        rw [acq_append, rel_append, show acquisitions r x [Ev.versions] = 0 by simp [acquisitions],
          show releases r x [Ev.versions] = 0 by simp [releases]]
        exact I.bal r x
    · next hn =>
      rw [hn] at hl
      simp only at hl
      have nor : ∀ x, Ev.returned x ∉ tr := by
        intro x hx
        obtain ⟨c, hc, _⟩ := I.ret x hx
        rw [hn] at hc; cases hc
      split at h
      · next hf =>
        rw [hl] at hf
        split at h
        · next es' hcr =>
          cases h
          obtain ⟨h1, h2, h3⟩ := create_none hf hcr
          refine ⟨?_, ?_, ?_, I.ok, ?_⟩
          · intro r x
            have hb := I.bal r x
            simp only [hl, List.count_nil, h1] at hb ⊢
            rw [acq_append, rel_append, acq_append, rel_append, h2 r x,
              show acquisitions r x [Ev.threw] = 0 by simp [acquisitions],
              show releases r x [Ev.threw] = 0 by simp [releases]]
            omega
          · intro _; simp only [hl, h1, hn]
          · intro _; simp only [hl, h1]
          · intro x hx
            simp at hx
            rcases hx with hx | hx
            · exact absurd hx (nor x)
            · exact absurd hx (h3 x)
        · next c es' hcr =>
          cases h
          obtain ⟨h1, h2, h3, h4⟩ := create_some hf hcr
          subst h1
          refine ⟨?_, ?_, ?_, ?_, ?_⟩
          · intro r x
            have hb := I.bal r x
            simp only [hl, List.count_nil] at hb
            rw [acq_append, rel_append, acq_append, rel_append]
            simp [acquisitions, releases, List.countP_cons, List.count_cons, hl, opening, Prod.ext_iff] at hb ⊢
            omega
          · intro _; simp [hl, opening]
          · intro h; simp only at h; rw [he] at h; cases h
          · intro c' hc'; cases hc'; exact ⟨h2, h3, h4⟩
          · intro x hx
            simp at hx
            rcases hx with hx | hx
            · exact absurd hx (nor x)
            · exact ⟨c, rfl, hx.symm⟩
      · cases h
  · split at h
    · next c hc =>
      cases h
      obtain ⟨h1, h2, h3⟩ := I.ok c hc
      rw [hc] at hl
      simp only at hl
      rw [destroy_full h1 h2 h3]
      refine ⟨?_, (fun h => nomatch h), ?_, I.ok, by simpa using I.ret⟩
      · intro r x
        have hb := I.bal r x
        rw [acq_append, rel_append]
        simp [acquisitions, releases, List.countP_cons, List.count_cons, hl, opening, Prod.ext_iff] at hb ⊢
        omega
      · intro _; simp [hl, opening]
    · next hn =>
      cases h
      rw [hn] at hl
      rw [List.append_nil]
      exact ⟨I.bal, (fun h => nomatch h), fun _ => hl, I.ok, I.ret⟩

theorem exec_inv {tr : List Ev} {s : St} (h : Exec step init tr s) : Inv tr s := h.invariant Inv inv_init step_inv

/-- Whoever stored a context returned from the call. -/
theorem tls_returned {tr : List Ev} {s : St} (h : Exec step init tr s) : ∀ c, s.tls = some c → ∃ x, Ev.returned x ∈ tr :=
  h.invariant (fun tr s => ∀ c, s.tls = some c → ∃ x, Ev.returned x ∈ tr) (by intro c h; simp [init] at h) (by
    intro tr s a s' es ih hs c hc
    unfold step at hs
    split at hs
    · cases hs
    split at hs
    · split at hs
      · next c' hc' =>
        obtain ⟨x, hx⟩ := ih c' hc'
        split at hs <;> cases hs <;> exact ⟨x, List.mem_append_left _ hx⟩
      · next hn =>
        split at hs
        · split at hs
          · cases hs; rw [hn] at hc; cases hc
          · next c' es' _ => cases hs; exact ⟨c'.timer, by simp⟩
        · cases hs
    · split at hs
      · next c' hc' =>
        obtain ⟨x, hx⟩ := ih c' hc'
        cases hs
        exact ⟨x, List.mem_append_left _ hx⟩
      · next hn => cases hs; rw [hn] at hc; cases hc)

/-- **C74**: all calls by a thread that return give the same timer, which is not null and is open as long as the thread
runs. -/
theorem C74_one_timer {tr : List Ev} {s : St} (h : Exec step init tr s) {x y : Nat}
    (hx : Ev.returned x ∈ tr) (hy : Ev.returned y ∈ tr) : x = y ∧ x ≠ 0 ∧ (s.ended = false → (Res.timer, x) ∈ s.opened) := by
  have I := exec_inv h
  obtain ⟨c, hc, rfl⟩ := I.ret x hx
  obtain ⟨c', hc', rfl⟩ := I.ret y hy
  rw [hc] at hc'
  cases hc'
  refine ⟨rfl, (I.ok c hc).1, fun he => ?_⟩
  have := I.live he
  rw [hc] at this
  rw [this]
  simp

/-- **C74**: a thread that has ended leaves nothing behind, and everything it obtained was given back exactly as often
as obtained; the same holds of a thread none of whose calls has returned yet (all that was obtained by failed calls was
given back). -/
theorem C74_no_leak {tr : List Ev} {s : St} (h : Exec step init tr s)
    (hq : s.ended = true ∨ ∀ x, Ev.returned x ∉ tr) :
    s.opened = [] ∧ ∀ r x, acquisitions r x tr = releases r x tr := by
  have I := exec_inv h
  have ho : s.opened = [] := by
    rcases hq with hq | hq
    · exact I.dead hq
    · cases he : s.ended with
      | true => exact I.dead he
      | false =>
        have hl := I.live he
        cases ht : s.tls with
        | none => rw [ht] at hl; exact hl
        | some c =>
          exfalso
          -- whoever stored a context returned from the call
          have : ∃ x, Ev.returned x ∈ tr := tls_returned h c ht
          obtain ⟨x, hx⟩ := this
          exact hq x hx
  refine ⟨ho, fun r x => ?_⟩
  have := I.bal r x
  rw [ho] at this
  simpa using this

/-- **C74**: nothing is given back more often than obtained, at any time. -/
theorem C74_no_double_release {tr : List Ev} {s : St} (h : Exec step init tr s) (r : Res) (x : Nat) :
    releases r x tr ≤ acquisitions r x tr := by
  have := (exec_inv h).bal r x
  omega

/-- The creation of a context does not return a timer by itself; it succeeds if all calls of the OS do. -/
theorem create_returns {v x : Nat} {os : Os} {o : Option Ctx} {es : List Ev} (h : create v os = (o, es)) :
    (Ev.returned x ∉ es ∧ Ev.threw ∉ es) ∧ (∀ c, o = some c → c.version = v ∧ os.addr.isSome ∧ os.thread.isSome ∧
      os.wait.isSome ∧ os.timer = some c.timer ∧ os.tlsSet = true) ∧
    (o = none → ¬ (os.addr.isSome ∧ os.thread.isSome ∧ os.wait.isSome ∧ os.timer.isSome ∧ os.tlsSet = true)) := by
  have hd : ∀ c, Ev.returned x ∉ destroy c ∧ Ev.threw ∉ destroy c := by
    intro c
    unfold destroy
    constructor <;>
      (intro hm; simp only [List.mem_append, List.mem_singleton, reduceCtorEq, or_false] at hm
       rcases hm with (hm | hm) | hm <;> split at hm <;> simp at hm)
  simp only [create] at h
  repeat' split at h
  all_goals cases h
  all_goals simp_all [ctx0]

/-- A context once published stays. -/
theorem tls_kept {s s' : St} {ls : List Act} {es : List Ev} {c : Ctx} (h : runFrom step s ls = some (s', es))
    (hc : s.tls = some c) : s'.tls = some c := by
  refine runFrom_invariant (step := step) (fun _ _ s => s.tls = some c) hc ?_ h
  intro _ _ s a s' es hc hs
  unfold step at hs
  split at hs
  · cases hs
  split at hs
  · simp only [hc] at hs
    split at hs <;> cases hs <;> exact hc
  · simp only [hc] at hs
    cases hs
    rfl

/-- **C74**: after a call from a module with Boost version `v` has returned timer `x`, every later call by the thread from a
module with the same version returns `x`, and every call from a module with another version throws `std::logic_error`
without returning the timer; no call acquires or releases anything. -/
theorem C74_later_calls {s s₁ s₂ s₃ : St} {v v' x : Nat} {os os' : Os} {ls : List Act} {es₁ es es₃ : List Ev}
    (hc : step s (.get v os) = some (s₁, es₁)) (hx : Ev.returned x ∈ es₁) (hr : runFrom step s₁ ls = some (s₂, es))
    (hs : step s₂ (.get v' os') = some (s₃, es₃)) : es₃ = if v' = v then [.returned x] else [.versions] := by
  have h₁ : ∃ c, s₁.tls = some c ∧ c.version = v ∧ c.timer = x := by
    unfold step at hc
    split at hc
    · cases hc
    simp only at hc
    split at hc
    · next c htls =>
      split at hc <;> cases hc
      · next hv => simp only [List.mem_singleton, Ev.returned.injEq] at hx; exact ⟨c, htls, hv, hx.symm⟩
      · simp at hx
    · split at hc
      · split at hc
        · next hcr =>
          cases hc
          simp only [List.mem_append, List.mem_singleton, reduceCtorEq, or_false] at hx
          exact absurd hx (create_returns hcr).1.1
        · next c es hcr =>
          cases hc
          simp only [List.mem_append, List.mem_singleton, Ev.returned.injEq] at hx
          rcases hx with hx | hx
          · exact absurd hx (create_returns hcr).1.1
          · exact ⟨c, rfl, ((create_returns (x := x) hcr).2.1 c rfl).1, hx.symm⟩
      · cases hc
  obtain ⟨c, h₁, rfl, rfl⟩ := h₁
  have h₂ := tls_kept hr h₁
  unfold step at hs
  split at hs
  · cases hs
  simp only [h₂] at hs
  split at hs <;> cases hs
  · next h => rw [if_pos h.symm]
  · next h => rw [if_neg (Ne.symm h)]

/-- **C74**: a call by a thread for which none has returned before gives the new timer if all the calls of the OS succeed,
and throws if one of them fails. -/
theorem C74_first_call {tr : List Ev} {s s' : St} {v : Nat} {os : Os} {es : List Ev} (h : Exec step init tr s)
    (hn : ∀ x, Ev.returned x ∉ tr) (hs : step s (.get v os) = some (s', es)) :
    (∀ x, Ev.returned x ∈ es ↔ os.addr.isSome ∧ os.thread.isSome ∧ os.wait.isSome ∧ os.timer = some x ∧ os.tlsSet = true) ∧
      (Ev.threw ∈ es ↔ ∀ x, Ev.returned x ∉ es) := by
  have htls : s.tls = none := by
    cases ht : s.tls with
    | none => rfl
    | some c => obtain ⟨x, hx⟩ := tls_returned h c ht; exact absurd hx (hn x)
  unfold step at hs
  split at hs
  · cases hs
  simp only [htls] at hs
  split at hs
  · split at hs
    · next es' hcr =>
      cases hs
      have R := fun x => create_returns (x := x) hcr
      refine ⟨fun x => ⟨fun hx => ?_, fun hx => ?_⟩, ?_⟩
      · simp only [List.mem_append, List.mem_singleton, reduceCtorEq, or_false] at hx
        exact absurd hx (R x).1.1
      · exact absurd ⟨hx.1, hx.2.1, hx.2.2.1, by rw [hx.2.2.2.1]; rfl, hx.2.2.2.2⟩ ((R x).2.2 rfl)
      · refine ⟨fun _ x hx => ?_, fun _ => by simp⟩
        simp only [List.mem_append, List.mem_singleton, reduceCtorEq, or_false] at hx
        exact (R x).1.1 hx
    · next c es' hcr =>
      cases hs
      have R := fun x => create_returns (x := x) hcr
      have S := (R 0).2.1 c rfl
      refine ⟨fun x => ⟨fun hx => ?_, fun hx => ?_⟩, ?_⟩
      · simp only [List.mem_append, List.mem_singleton, Ev.returned.injEq] at hx
        rcases hx with hx | rfl
        · exact absurd hx (R x).1.1
        · exact S.2
      · rw [S.2.2.2.2.1] at hx
        simp only [Option.some.injEq] at hx
        rw [← hx.2.2.2.1]
        simp
      · refine ⟨fun hx => ?_, fun hx => absurd (show Ev.returned c.timer ∈ _ by simp) (hx c.timer)⟩
        simp only [List.mem_append, List.mem_singleton, reduceCtorEq, or_false] at hx
        exact absurd hx (R 0).1.2
  · cases hs

/-- A thread whose first call fails when the timer is to be created, whose second one succeeds, whose third one finds
the timer and which ends thereafter. -/
def demo : List Act :=
  [.get 1 { addr := some 10, thread := some 20, wait := some 30, timer := none, tlsSet := true },
   .get 1 { addr := some 11, thread := some 20, wait := some 31, timer := some 40, tlsSet := true },
   .get 1 { addr := none, thread := none, wait := none, timer := none, tlsSet := true }, .exit]

example : ∃ s tr, Exec step init tr s ∧ s.ended = true ∧ Ev.threw ∈ tr ∧
    tr.countP (· == .returned 40) = 2 ∧ releases .thread 20 tr = 2 :=
  ⟨_, _, exec_of_run (ls := demo) rfl, by decide, by decide, by decide, by decide⟩

/-- The timer created for one module is found by another one of the same version and refused to one of another version. -/
example : ∃ s₁ s₂ es₁ es os, step init (.get 7 os) = some (s₁, es₁) ∧ Ev.returned 40 ∈ es₁ ∧
    runFrom step s₁ [.get 7 os] = some (s₂, es) ∧ step s₂ (.get 8 os) = some (s₂, [.versions]) :=
  ⟨_, _, _, _, ⟨some 10, some 20, some 30, some 40, true⟩, rfl, by decide, rfl, rfl⟩

end Verif.TimerContext
