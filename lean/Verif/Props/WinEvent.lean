import Verif.Proof.WinEvent

/-! C84: the events on Windows. -/

namespace Verif.WinEvent

/-- **C84.**  Whatever the OS calls return, what happens to the event is a history of a flag that is unset at the begin, and the OS event is that
flag. -/
theorem C84_atomic {manual : Bool} {n : Nat} {tr : List Ev} {s : St} (h : Exec (step manual) (init n) tr s) :
    flagOf manual tr = some s.flag :=
  (inv_exec h).flag

/-- **C84.**  Between its call and its return every function has had exactly the effect of the operation if it succeeded; if it returned false
it has seen the event unset at least once and has not changed it; if it threw it has not changed it. -/
theorem C84_results {manual : Bool} {n : Nat} {tr : List Ev} {s : St} (h : Exec (step manual) (init n) tr s)
    {pre post : List Ev} {t : Nat} {r : Res} (htr : tr = pre ++ Ev.ret t r :: post) :
    ∃ op es, callOf pre t = some (op, es) ∧ Fits op es r :=
  (inv_exec h).rets pre t r post htr

/-- **C84.**  Outside of its calls a thread does nothing to the event: every effect belongs to a call. -/
theorem C84_effects {manual : Bool} {n : Nat} {tr : List Ev} {s : St} (h : Exec (step manual) (init n) tr s) {t : Nat} {pc : PC}
    (ht : s.ths[t]? = some pc) {e : Ev} {l : Act} {s' : St} {es : List Ev} (hs : step manual s (t, l) = some (s', es)) (he : e ∈ es)
    (hn : ∀ op, e ≠ .called t op) : (callOf tr t).isSome := by
  have hat := (inv_exec h).at_ t pc ht
  generalize callOf tr t = c at hat
  cases hat with
  | idle =>
    exfalso
    unfold step at hs
    simp only [ht] at hs
    split at hs
    all_goals (repeat' split at hs)
    all_goals first
      | contradiction
      | skip
    all_goals
      simp only [Option.some.injEq, Prod.mk.injEq] at hs
      obtain ⟨rfl, rfl⟩ := hs
    all_goals first
      | exact hn _ (List.mem_singleton.mp he)
      | skip
  | _ => rfl

/-- A thread waits for the event. -/
def PC.waits : PC → Bool
  | .wait | .tryWait | .rel _ _ | .abs => true
  | _ => false

/-- **C84.**  A thread that waits is not kept waiting by a set event: its OS call can return, and with it the wait. -/
theorem C84_wakes {manual : Bool} {n : Nat} {tr : List Ev} {s : St} (h : Exec (step manual) (init n) tr s) {t : Nat} {pc : PC}
    (ht : s.ths[t]? = some pc) (hw : pc.waits = true) (hf : flagOf manual tr = some true) :
    ∃ s' r, step manual s (t, .go) = some (s', [.took t, .ret t r]) ∧ (r = .done ∨ r = .yes) ∧ s'.flag = manual ∧
      s'.ths[t]? = some .idle ∧ ∀ u, u ≠ t → s'.ths[u]? = s.ths[u]? := by
  have hs : s.flag = true := by
    have := (inv_exec h).flag
    rw [hf] at this
    exact (Option.some.inj this).symm
  cases pc <;> first | cases hw; done | skip
  · exact ⟨_, .done, by simp [step, ht, hs]; rfl, .inl rfl, rfl, get_set_self ht, fun u hu => get_set_ne (Ne.symm hu)⟩
  all_goals
    exact ⟨_, .yes, by simp [step, ht, hs]; rfl, .inr rfl, rfl, get_set_self ht, fun u hu => get_set_ne (Ne.symm hu)⟩

/-- **C84.**  Every call can return without failure of an OS call and without the help of others, save `wait` while the event is not set. -/
theorem C84_returns {manual : Bool} {s : St} {t : Nat} {pc : PC} (ht : s.ths[t]? = some pc) (hi : pc ≠ .idle)
    (hw : pc = .wait → s.flag = true) : ∃ ls s' tr' r, runFrom (step manual) s ls = some (s', tr') ∧ (∀ l ∈ ls, l.1 = t ∧ l.2 ≠ .fail) ∧
      Ev.ret t r ∈ tr' ∧ r ≠ .threw ∧ s'.ths[t]? = some .idle := by
  have cons : ∀ {a : Act} {s₁ s₂ : St} {es : List Ev} , step manual s₁ (t, a) = some (s₂, es) → a ≠ .fail →
      (∃ ls s' tr' r, runFrom (step manual) s₂ ls = some (s', tr') ∧ (∀ l ∈ ls, l.1 = t ∧ l.2 ≠ .fail) ∧
        Ev.ret t r ∈ tr' ∧ r ≠ .threw ∧ s'.ths[t]? = some .idle) →
      ∃ ls s' tr' r, runFrom (step manual) s₁ ls = some (s', tr') ∧ (∀ l ∈ ls, l.1 = t ∧ l.2 ≠ .fail) ∧
        Ev.ret t r ∈ tr' ∧ r ≠ .threw ∧ s'.ths[t]? = some .idle := by
    rintro a s₁ s₂ es hs ha ⟨ls, s', tr', r, h1, h2, h3, h4, h5⟩
    refine ⟨(t, a) :: ls, s', es ++ tr', r, ?_, ?_, List.mem_append_right _ h3, h4, h5⟩
    · rw [runFrom, hs]; simp only; rw [h1]
    · intro l hl
      rcases List.mem_cons.mp hl with rfl | hl
      · exact ⟨rfl, ha⟩
      · exact h2 l hl
  have one : ∀ {a : Act} {s₁ s₂ : St} {es : List Ev} {r : Res}, step manual s₁ (t, a) = some (s₂, es) → a ≠ .fail → Ev.ret t r ∈ es → r ≠ .threw →
      s₂.ths[t]? = some .idle → ∃ ls s' tr' r, runFrom (step manual) s₁ ls = some (s', tr') ∧ (∀ l ∈ ls, l.1 = t ∧ l.2 ≠ .fail) ∧
        Ev.ret t r ∈ tr' ∧ r ≠ .threw ∧ s'.ths[t]? = some .idle := by
    intro a s₁ s₂ es r hs ha hr hne hid
    refine ⟨[(t, a)], s₂, es, r, ?_, ?_, hr, hne, hid⟩
    · rw [runFrom, hs]; simp [runFrom]
    · intro l hl
      rw [List.mem_singleton.mp hl]
      exact ⟨rfl, ha⟩
  have again : ∀ s : St, s.ths[t]? = some .clockAgain → ∃ ls s' tr' r, runFrom (step manual) s ls = some (s', tr') ∧ (∀ l ∈ ls, l.1 = t ∧ l.2 ≠ .fail) ∧
        Ev.ret t r ∈ tr' ∧ r ≠ .threw ∧ s'.ths[t]? = some .idle := by
    intro s ht
    exact one (a := .clock false 0) (r := .no) (by simp only [step, ht]; rfl) nofun (by simp) nofun (get_set_self ht)
  have rel : ∀ (left : Nat) (clk : Bool) (s : St), s.ths[t]? = some (.rel left clk) →
      ∃ ls s' tr' r, runFrom (step manual) s ls = some (s', tr') ∧ (∀ l ∈ ls, l.1 = t ∧ l.2 ≠ .fail) ∧
        Ev.ret t r ∈ tr' ∧ r ≠ .threw ∧ s'.ths[t]? = some .idle := by
    intro left
    induction left using Nat.strongRecOn with
    | ind left ih =>
      intro clk s ht
      cases hf : s.flag
      · by_cases hl : lessWait left > 0
        · have hlt : lessWait left < left := by
            unfold lessWait maxWait at *
            split at hl
            · next h => rw [if_pos h]; omega
            · omega
          exact cons (a := .timeout) (by simp only [step, ht, hf, if_pos hl]; rfl) nofun
            (ih _ hlt clk { s with ths := s.ths.set t (.rel (lessWait left) clk) } (get_set_self ht))
        · cases clk
          · exact one (a := .timeout) (r := .no) (by simp only [step, ht, hf, if_neg hl]; rfl) nofun (by simp) nofun (get_set_self ht)
          · exact cons (a := .timeout) (by simp only [step, ht, hf, if_neg hl]; rfl) nofun
              (again { s with ths := s.ths.set t .clockAgain } (get_set_self ht))
      · exact one (a := .go) (r := .yes) (by simp only [step, ht, hf]; rfl) nofun (by simp) nofun (get_set_self ht)
  have abs : ∀ (s : St), s.ths[t]? = some .abs →
      ∃ ls s' tr' r, runFrom (step manual) s ls = some (s', tr') ∧ (∀ l ∈ ls, l.1 = t ∧ l.2 ≠ .fail) ∧
        Ev.ret t r ∈ tr' ∧ r ≠ .threw ∧ s'.ths[t]? = some .idle := by
    intro s ht
    cases hf : s.flag
    · exact one (a := .timeout) (r := .no) (by simp only [step, ht, hf]; rfl) nofun (by simp) nofun (get_set_self ht)
    · exact one (a := .go) (r := .yes) (by simp only [step, ht, hf]; rfl) nofun (by simp) nofun (get_set_self ht)
  cases pc with
  | idle => exact absurd rfl hi
  | set => exact one (a := .go) (r := .done) (by simp only [step, ht]; rfl) nofun (by simp) nofun (get_set_self ht)
  | reset => exact one (a := .go) (r := .done) (by simp only [step, ht]; rfl) nofun (by simp) nofun (get_set_self ht)
  | wait => exact one (a := .go) (r := .done) (by simp only [step, ht, hw rfl]; rfl) nofun (by simp) nofun (get_set_self ht)
  | tryWait =>
    cases hf : s.flag
    · exact one (a := .timeout) (r := .no) (by simp only [step, ht, hf]; rfl) nofun (by simp) nofun (get_set_self ht)
    · exact one (a := .go) (r := .yes) (by simp only [step, ht, hf]; rfl) nofun (by simp) nofun (get_set_self ht)
  | rel left clk => exact rel left clk s ht
  | timer => exact cons (a := .go) (by simp only [step, ht]; rfl) nofun (abs { s with ths := s.ths.set t .abs } (get_set_self ht))
  | abs => exact abs s ht
  | clock => exact cons (a := .clock true 0) (by simp only [step, ht]; rfl) nofun (rel _ true { s with ths := s.ths.set t (.rel (clamp 0) true) } (get_set_self ht))
  | clockAgain => exact again s ht

/-- An auto-reset event: thread 0 waits for more than 49 days in two pieces, thread 1 waits with a user's clock and fails, thread 2 fails to post
and posts. -/
def demo : List (Nat × Act) :=
  [(0, .call (.timedRel 5000000000)), (1, .call .timedClock), (1, .clock true 0), (0, .timeout), (1, .timeout), (1, .clock true 1),
   (2, .call .set), (2, .fail), (1, .timeout), (1, .clock false 0), (2, .call .set), (2, .go), (0, .go)]

example : ∃ tr s, Exec (step false) (init 3) tr s ∧
    tr = [.called 0 (.timedRel 5000000000), .called 1 .timedClock, .sawUnset 0, .sawUnset 1, .called 2 .set, .ret 2 .threw, .sawUnset 1, .ret 1 .no,
      .called 2 .set, .didSet 2, .ret 2 .done, .took 0, .ret 0 .yes] ∧ s.flag = false :=
  ⟨_, _, exec_of_run (ls := demo) rfl, rfl, rfl⟩

/-- A waiting thread and a set event. -/
example : ∃ tr s, Exec (step true) (init 3) tr s ∧ s.ths[0]? = some (.rel 705032706 false) ∧ flagOf true tr = some true :=
  ⟨_, _, exec_of_run (ls := demo.take 12) rfl, rfl, rfl⟩

/-- A step with an effect. -/
example : ∃ tr s s' es, Exec (step false) (init 3) tr s ∧ s.ths[0]? = some (.rel 705032706 false) ∧ step false s (0, .go) = some (s', es) ∧
    Ev.took 0 ∈ es ∧ ∀ op, Ev.took 0 ≠ .called 0 op :=
  ⟨_, _, _, _, exec_of_run (ls := demo.take 12) rfl, rfl, rfl, by decide, nofun⟩

/-- A thread about to set a timer. -/
example : ∃ tr s, Exec (step false) (init 3) tr s ∧ s.ths[0]? = some .timer := ⟨_, _, exec_of_run (ls := [(0, .call .timedAbs)]) rfl, rfl⟩

end Verif.WinEvent
