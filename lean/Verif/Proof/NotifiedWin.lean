import Verif.Proof.WinCondVarTerm
import Verif.Proof.WinCondVarCall
import Verif.Proof.Endless
import Verif.Spec.NotifiedWin

/-!
# Notified waits of the condition variable of Windows come back (C115)
-/

namespace Verif.WinCv

open Verif.Spec.Endless

/-- The steps that depend neither on the user nor on the clock nor on a failure of the system. -/
def Next (_ : St) (a : Act) : Prop := a = .go

/-- A step moves one thread. -/
theorem step_ths {s s' : St} {t : Nat} {es : List Ev} (h : Step s t s' es) : ∃ pc pc', s.ths[t]? = some pc ∧ s'.ths = s.ths.set t pc' := by
  have self : ∀ pc : PC, s.ths[t]? = some pc → s.ths = s.ths.set t pc := fun pc h => (set_same h).symm
  cases h <;> first
    | (rename_i h _; exact ⟨_, _, h, self _ h⟩)
    | (rename_i h _ _; exact ⟨_, _, h, rfl⟩)
    | (rename_i h _; exact ⟨_, _, h, rfl⟩)
    | (rename_i h; exact ⟨_, _, h, rfl⟩)
    | (rename_i h _ _ _; exact ⟨_, _, h, rfl⟩)
    | (rename_i h _ _ _; exact ⟨_, _, h, self _ h⟩)

/-- What threads without the internal mutex leave alone while another thread has it. -/
theorem bystander_step {s s' : St} {t u : Nat} {es : List Ev} (hl : Locks s) (ho : s.owner = some u) (hne : t ≠ u) (h : Step s t s' es) :
    s'.owner = some u ∧ core s'.nodes = core s.nodes ∧ s'.notify = s.notify ∧ s'.waitSt = s.waitSt ∧ s'.total = s.total ∧
      ∀ (q : Nat) (pc : PC), s.ths[t]? = some pc → pc.reg q = true → ∃ pc' : PC, s'.ths[t]? = some pc' ∧ pc'.reg q = true := by
  have hn : ∀ pc : PC, s.ths[t]? = some pc → pc.holds = true → False := fun pc hp hh => by
    have := hl.own t pc hp hh
    rw [ho] at this; cases this; exact hne rfl
  cases h with
  | userLock h _ => exact ⟨ho, rfl, rfl, rfl, rfl, fun q pc hp hr => ⟨pc, hp, hr⟩⟩
  | userUnlock h _ => exact ⟨ho, rfl, rfl, rfl, rfl, fun q pc hp hr => ⟨pc, hp, hr⟩⟩
  | goto h hg =>
    refine ⟨ho, rfl, rfl, rfl, rfl, fun q pc hp hr => ?_⟩
    rw [h] at hp; cases hp
    cases hg <;> first | exact Bool.noConfusion hr | exact ⟨_, get_set_self h, hr⟩
  | enter h hg hf => rw [ho] at hf; cases hf
  | exit h hg => cases hg <;> exact (hn _ h rfl).elim
  | unlock h =>
    refine ⟨ho, rfl, rfl, rfl, rfl, fun q pc hp hr => ?_⟩
    rw [h] at hp; cases hp
    exact ⟨_, get_set_self h, hr⟩
  | token h hx ht =>
    refine ⟨ho, core_set_same hx rfl rfl rfl, rfl, rfl, rfl, fun q pc hp hr => ?_⟩
    rw [h] at hp; cases hp
    exact ⟨_, get_set_self h, hr⟩
  | relock h hu =>
    refine ⟨ho, rfl, rfl, rfl, rfl, fun q pc hp hr => ?_⟩
    rw [h] at hp; cases hp
    exact Bool.noConfusion hr
  | leave h hg _ _ => cases hg <;> exact (hn _ h rfl).elim
  | leave0 h hg _ _ => cases hg <;> exact (hn _ h rfl).elim
  | first h _ => exact (hn _ h rfl).elim
  | join h _ _ _ => exact (hn _ h rfl).elim
  | advance h _ _ _ => exact (hn _ h rfl).elim
  | around h _ _ _ => exact (hn _ h rfl).elim
  | create h _ => exact (hn _ h rfl).elim
  | decide0 h _ => exact (hn _ h rfl).elim
  | decide h _ _ => exact (hn _ h rfl).elim
  | wakeLast h _ _ _ => exact (hn _ h rfl).elim
  | wakeNext h _ _ _ => exact (hn _ h rfl).elim

theorem bystander_loops {s s' : St} {t u k : Nat} {es : List Ev} (hl : Locks s) (ho : s.owner = some u) (hne : t ≠ u) (h : Step s t s' es) (hk : Loops s k) :
    Loops s' k := by
  obtain ⟨h1, h2, h3, h4, _⟩ := bystander_step hl ho hne h
  have key : ∀ (v : Nat) (pc : PC), s'.ths[v]? = some pc → pc.holds = true → s.ths[v]? = some pc := fun v pc hv hh => by
    have := (locks_step hl h).own v pc hv hh
    rw [h1] at this; cases this
    rw [← step_others h (Ne.symm hne)]; exact hv
  refine ⟨fun v c hv => ?_, fun v kd e hv => ?_⟩
  · rw [h2, h3]; exact hk.wake v c (key v _ hv rfl)
  · rw [h2, h4]; exact hk.search v kd e (key v _ hv rfl)

/-- How many stages the owner of the internal mutex has still to pass with it. -/
def PC.hold : PC → Nat
  | .wInit _ => 4
  | .wLoop _ _ | .nCheck _ => 3
  | .wNew _ _ | .waking _ => 2
  | _ => 1

/-- The owner of the internal mutex releases it, passes a stage, or comes nearer to the end of its loop. -/
theorem owner_step {s s' : St} {u : Nat} {es : List Ev} {pc : PC} (hg : Good s) (hp : s.ths[u]? = some pc) (hh : pc.holds = true) (h : Step s u s' es) :
    s'.owner = none ∨ ∃ pc', s'.ths[u]? = some pc' ∧ pc'.holds = true ∧
      (pc'.hold < pc.hold ∨ pc'.hold = pc.hold ∧ ∀ k, Loops s k → ∃ k', k' < k ∧ Loops s' k') := by
  have hsm := step_smaller hg.locks h (by intro h0; rw [hp] at h0; cases h0; exact Bool.noConfusion hh)
  have is : ∀ x : PC, s.ths[u]? = some x → x = pc := fun x hx => by rw [hp] at hx; cases hx; rfl
  cases h with
  | userLock h _ => have := is _ h; subst this; exact Bool.noConfusion hh
  | userUnlock h _ => have := is _ h; subst this; exact Bool.noConfusion hh
  | goto h hgo =>
    have := is _ h; subst this
    cases hgo <;> first | exact Bool.noConfusion hh | exact .inr ⟨_, get_set_self h, rfl, .inl (of_decide_eq_true rfl)⟩
  | enter h hgo hf => have := hg.locks.own u pc hp hh; rw [hf] at this; cases this
  | exit h _ => exact .inl rfl
  | unlock h => have := is _ h; subst this; exact Bool.noConfusion hh
  | token h _ _ => have := is _ h; subst this; exact Bool.noConfusion hh
  | relock h _ => have := is _ h; subst this; exact Bool.noConfusion hh
  | leave h _ _ _ => exact .inl rfl
  | leave0 h _ _ _ => exact .inl rfl
  | advance h hx hn he =>
    have := is _ h; subst this
    refine .inr ⟨_, hp, rfl, .inr ⟨rfl, ?_⟩⟩
    rcases hsm with hc | ⟨_, hc⟩ | ⟨_, _, hc⟩
    · exact absurd hc (Nat.lt_irrefl _)
    · exact hc
    · exact absurd hc (Nat.lt_irrefl _)
  | @wakeNext c x m h hx hm hc =>
    have := is _ h; subst this
    refine .inr ⟨_, get_set_self h, rfl, .inr ⟨rfl, ?_⟩⟩
    have hst : Step s u _ _ := .wakeNext h hx hm hc
    intro j hj
    obtain ⟨i, hi, hw⟩ := hj.wake u c h
    have hpos := wakeIn_pos hw
    rcases (wake_step h hw hst).2 with ⟨_, h2⟩ | ⟨c', h2, h3⟩
    · rw [get_set_self h] at h2; cases h2
    · rw [get_set_self h] at h2
      cases h2
      refine ⟨j - 1, by omega, ?_, ?_⟩
      · intro u c' hu
        rcases get_set_cases hu with ⟨_, hc'⟩ | ⟨hne, hu⟩
        · cases hc'
          exact ⟨i - 1, by omega, h3⟩
        · exact absurd (sole hg.locks h rfl hu rfl).1 hne
      · intro u kd e hu
        rcases get_set_cases hu with ⟨_, hc'⟩ | ⟨hne, hu⟩
        · cases hc'
        · exact absurd (sole hg.locks h rfl hu rfl).1 hne
  | first h _ => have := is _ h; subst this; exact .inr ⟨_, get_set_self h, rfl, .inl (of_decide_eq_true rfl)⟩
  | join h _ _ _ => have := is _ h; subst this; exact .inr ⟨_, get_set_self h, rfl, .inl (of_decide_eq_true rfl)⟩
  | around h _ _ _ => have := is _ h; subst this; exact .inr ⟨_, get_set_self h, rfl, .inl (of_decide_eq_true rfl)⟩
  | create h _ => have := is _ h; subst this; exact .inr ⟨_, get_set_self h, rfl, .inl (of_decide_eq_true rfl)⟩
  | decide0 h _ => have := is _ h; subst this; exact .inr ⟨_, get_set_self h, rfl, .inl (of_decide_eq_true rfl)⟩
  | decide h _ _ => have := is _ h; subst this; exact .inr ⟨_, get_set_self h, rfl, .inl (of_decide_eq_true rfl)⟩
  | wakeLast h _ _ _ => have := is _ h; subst this; exact .inr ⟨_, get_set_self h, rfl, .inl (of_decide_eq_true rfl)⟩

/-- Thread `u` is registered in node `q`, and all threads registered there have been notified. -/
def Full (s : St) (u q : Nat) : Prop := (∃ pc : PC, s.ths[u]? = some pc ∧ pc.reg q = true) ∧ ∃ x : Node, s.nodes[q]? = some x ∧ x.w ≤ x.n

theorem reg_counted {s : St} (hc : Counts s) {u q : Nat} {pc : PC} (hp : s.ths[u]? = some pc) (hr : pc.reg q = true) : ∃ x : Node, s.nodes[q]? = some x ∧ 1 ≤ x.w := by
  have h1 := countP_pos_of_get hp hr
  rw [hc.reg q] at h1
  unfold wOf at h1
  cases hx : s.nodes[q]? with
  | none => rw [hx] at h1; simp at h1
  | some x => rw [hx] at h1; exact ⟨x, rfl, h1⟩

/-- A full node stays full as long as the thread is registered there; the thread is registered until it has only to lock the user's lock again. -/
theorem full_step {s s' : St} {t u q : Nat} {es : List Ev} (hg : Good s) (hf : Full s u q) (h : Step s t s' es) :
    Full s' u q ∨ (t = u ∧ ∃ r, s'.ths[u]? = some (.relock r)) := by
  obtain ⟨⟨pc, hp, hr⟩, x, hx, hle⟩ := hf
  obtain ⟨y, hy, hw⟩ := reg_counted hg.counts hp hr
  rw [hx] at hy; cases hy
  have nodes : (∃ x : Node, s'.nodes[q]? = some x ∧ x.w ≤ x.n) := by
    have set : ∀ (p : Nat) (y z : Node), s.nodes[p]? = some y → (p = q → z.w ≤ z.n) → ∃ x : Node, (s.nodes.set p z)[q]? = some x ∧ x.w ≤ x.n := by
      intro p y z hy hz
      by_cases hpq : p = q
      · subst hpq; exact ⟨z, get_set_self hy, hz rfl⟩
      · exact ⟨x, by rw [get_set_ne hpq]; exact hx, hle⟩
    have same : ∀ (p : Nat) (y : Node), s.nodes[p]? = some y → p = q → y = x := fun p y hy e => by rw [e, hx] at hy; cases hy; rfl
    cases h with
    | first h hn => rw [hn] at hx; simp at hx
    | join h hy hn _ => exact set _ _ _ hy fun e => by have := same _ _ hy e; subst this; omega
    | token h hy _ => exact set _ _ _ hy fun e => by have := same _ _ hy e; subst this; exact hle
    | leave h _ hy hn => exact set _ _ _ hy fun e => by have := same _ _ hy e; subst this; simp only [Node.leave]; omega
    | leave0 h _ hy hn => exact set _ _ _ hy fun e => by have := same _ _ hy e; subst this; omega
    | wakeLast h hy _ _ => exact set _ _ _ hy fun e => by have := same _ _ hy e; subst this; simp only [Node.wake]; omega
    | wakeNext h hy _ _ => exact set _ _ _ hy fun e => by have := same _ _ hy e; subst this; simp only [Node.wake]; omega
    | @create k e y h hy =>
      obtain ⟨z, hz, hzl⟩ := set e y { y with next := s.nodes.length } hy fun e => by have := same _ _ hy e; subst this; exact hle
      exact ⟨z, by rw [List.getElem?_append_left (List.getElem?_eq_some_iff.mp hz).1]; exact hz, hzl⟩
    | _ => exact ⟨x, hx, hle⟩
  by_cases htu : t = u
  · subst htu
    have is : ∀ y : PC, s.ths[t]? = some y → y = pc := fun y hy => by rw [hp] at hy; cases hy; rfl
    cases h with
    | userLock h _ => exact .inl ⟨⟨pc, hp, hr⟩, nodes⟩
    | userUnlock h _ => exact .inl ⟨⟨pc, hp, hr⟩, nodes⟩
    | leave h _ _ _ => exact .inr ⟨rfl, _, get_set_self h⟩
    | leave0 h _ _ _ => exact .inr ⟨rfl, _, get_set_self h⟩
    | goto h hgo =>
      have := is _ h; subst this
      cases hgo <;> first | exact Bool.noConfusion hr | exact .inl ⟨⟨_, get_set_self h, hr⟩, nodes⟩
    | enter h hgo _ =>
      have := is _ h; subst this
      cases hgo <;> first | exact Bool.noConfusion hr | exact .inl ⟨⟨_, get_set_self h, hr⟩, nodes⟩
    | exit h hgo =>
      have := is _ h; subst this
      cases hgo <;> first | exact Bool.noConfusion hr | exact .inl ⟨⟨_, get_set_self h, hr⟩, nodes⟩
    | unlock h => have := is _ h; subst this; exact .inl ⟨⟨_, get_set_self h, hr⟩, nodes⟩
    | token h _ _ => have := is _ h; subst this; exact .inl ⟨⟨_, get_set_self h, hr⟩, nodes⟩
    | first h _ => have := is _ h; subst this; exact Bool.noConfusion hr
    | join h _ _ _ => have := is _ h; subst this; exact Bool.noConfusion hr
    | advance h _ _ _ => have := is _ h; subst this; exact Bool.noConfusion hr
    | around h _ _ _ => have := is _ h; subst this; exact Bool.noConfusion hr
    | create h _ => have := is _ h; subst this; exact Bool.noConfusion hr
    | relock h _ => have := is _ h; subst this; exact Bool.noConfusion hr
    | decide0 h _ => have := is _ h; subst this; exact Bool.noConfusion hr
    | decide h _ _ => have := is _ h; subst this; exact Bool.noConfusion hr
    | wakeLast h _ _ _ => have := is _ h; subst this; exact Bool.noConfusion hr
    | wakeNext h _ _ _ => have := is _ h; subst this; exact Bool.noConfusion hr
  · exact .inl ⟨⟨pc, by rw [step_others h (Ne.symm htu)]; exact hp, hr⟩, nodes⟩

/-- How many stages of the wait a thread that is registered has still to pass. -/
def PC.stage : PC → Nat
  | .wExit _ _ => 5
  | .wUnlock _ _ => 4
  | .blocked _ _ => 3
  | .gotTok _ _ | .expired _ | .failed _ => 2
  | _ => 1

/-- A thread registered in a full node passes a stage with each of its steps. -/
theorem stage_step {s s' : St} {u q : Nat} {es : List Ev} {pc : PC} (hg : Good s) (hf : Full s u q) (hp : s.ths[u]? = some pc) (h : Step s u s' es) :
    (∃ r, s'.ths[u]? = some (.relock r)) ∨ ∃ pc', s'.ths[u]? = some pc' ∧ pc'.stage < pc.stage := by
  obtain ⟨⟨pc1, hp1, hr⟩, x, hx, hle⟩ := hf
  rw [hp] at hp1; cases hp1
  obtain ⟨y, hy, hw⟩ := reg_counted hg.counts hp hr
  rw [hx] at hy; cases hy
  have is : ∀ y : PC, s.ths[u]? = some y → y = pc := fun y hy => by rw [hp] at hy; cases hy; rfl
  cases h with
  | userLock h _ => have := is _ h; subst this; exact Bool.noConfusion hr
  | userUnlock h _ => have := is _ h; subst this; exact Bool.noConfusion hr
  | leave h _ _ _ => exact .inl ⟨_, get_set_self h⟩
  | leave0 h _ _ _ => exact .inl ⟨_, get_set_self h⟩
  | goto h hgo =>
    have := is _ h; subst this
    cases hgo <;> first | exact Bool.noConfusion hr | exact .inr ⟨_, get_set_self h, of_decide_eq_true rfl⟩
  | enter h hgo _ =>
    have := is _ h; subst this
    cases hgo <;> first | exact Bool.noConfusion hr | exact .inr ⟨_, get_set_self h, of_decide_eq_true rfl⟩
  | exit h hgo =>
    have := is _ h; subst this
    cases hgo with
    | abort => exact Bool.noConfusion hr
    | wait k p => exact .inr ⟨_, get_set_self h, of_decide_eq_true rfl⟩
    | stale k p y hy hn =>
      have hpq : p = q := by simpa [PC.reg] using hr
      rw [hpq, hx] at hy; cases hy
      omega
    | notify => exact Bool.noConfusion hr
  | unlock h => have := is _ h; subst this; exact .inr ⟨_, get_set_self h, of_decide_eq_true rfl⟩
  | token h _ _ => have := is _ h; subst this; exact .inr ⟨_, get_set_self h, of_decide_eq_true rfl⟩
  | first h _ => have := is _ h; subst this; exact Bool.noConfusion hr
  | join h _ _ _ => have := is _ h; subst this; exact Bool.noConfusion hr
  | advance h _ _ _ => have := is _ h; subst this; exact Bool.noConfusion hr
  | around h _ _ _ => have := is _ h; subst this; exact Bool.noConfusion hr
  | create h _ => have := is _ h; subst this; exact Bool.noConfusion hr
  | relock h _ => have := is _ h; subst this; exact Bool.noConfusion hr
  | decide0 h _ => have := is _ h; subst this; exact Bool.noConfusion hr
  | decide h _ _ => have := is _ h; subst this; exact Bool.noConfusion hr
  | wakeLast h _ _ _ => have := is _ h; subst this; exact Bool.noConfusion hr
  | wakeNext h _ _ _ => have := is _ h; subst this; exact Bool.noConfusion hr

/-- While there is no unit in the semaphore of node `q` no thread takes one. -/
theorem flight_step {s s' : St} {t q : Nat} {es : List Ev} (h : Step s t s' es) (h0 : ∀ x : Node, s.nodes[q]? = some x → x.tok = 0) {pc pc' : PC}
    (hp : s.ths[t]? = some pc) (hp' : s'.ths[t]? = some pc') (hf : pc'.flight q = true) : pc.flight q = true := by
  have is : ∀ y : PC, s.ths[t]? = some y → y = pc := fun y hy => by rw [hp] at hy; cases hy; rfl
  have now : ∀ y z : PC, s.ths[t]? = some y → (s.ths.set t z)[t]? = some pc' → z = pc' := fun y z hy hz => by rw [get_set_self hy] at hz; cases hz; rfl
  cases h with
  | userLock h _ => rw [hp] at hp'; cases hp'; exact hf
  | userUnlock h _ => rw [hp] at hp'; cases hp'; exact hf
  | advance h _ _ _ => rw [hp] at hp'; cases hp'; exact hf
  | goto h hgo =>
    have := is _ h; subst this
    have := now _ _ h hp'; subst this
    cases hgo <;> exact Bool.noConfusion hf
  | enter h hgo _ =>
    have := is _ h; subst this
    have := now _ _ h hp'; subst this
    cases hgo <;> first | exact Bool.noConfusion hf | exact hf
  | exit h hgo =>
    have := is _ h; subst this
    have := now _ _ h hp'; subst this
    cases hgo <;> exact Bool.noConfusion hf
  | @token k p x h hx ht =>
    have := is _ h; subst this
    have := now _ _ h hp'; subst this
    have hpq : p = q := by simpa [PC.flight] using hf
    subst hpq
    have := h0 x hx; omega
  | leave h _ _ _ => have := now _ _ h hp'; subst this; exact Bool.noConfusion hf
  | leave0 h _ _ _ => have := now _ _ h hp'; subst this; exact Bool.noConfusion hf
  | unlock h => have := now _ _ h hp'; subst this; exact Bool.noConfusion hf
  | first h _ => have := now _ _ h hp'; subst this; exact Bool.noConfusion hf
  | join h _ _ _ => have := now _ _ h hp'; subst this; exact Bool.noConfusion hf
  | around h _ _ _ => have := now _ _ h hp'; subst this; exact Bool.noConfusion hf
  | create h _ => have := now _ _ h hp'; subst this; exact Bool.noConfusion hf
  | relock h _ => have := now _ _ h hp'; subst this; exact Bool.noConfusion hf
  | decide0 h _ => have := now _ _ h hp'; subst this; exact Bool.noConfusion hf
  | decide h _ _ => have := now _ _ h hp'; subst this; exact Bool.noConfusion hf
  | wakeLast h _ _ _ => have := now _ _ h hp'; subst this; exact Bool.noConfusion hf
  | wakeNext h _ _ _ => have := now _ _ h hp'; subst this; exact Bool.noConfusion hf

/-- When nobody is left to wake every node is full. -/
theorem full_of_total {s : St} (hg : Good s) (h0 : s.total = 0) (hw : ∀ (v c : Nat), s.ths[v]? ≠ some (.waking c)) {u q : Nat} {pc : PC} (hp : s.ths[u]? = some pc)
    (hr : pc.reg q = true) : Full s u q := by
  obtain ⟨x, hx, _⟩ := reg_counted hg.counts hp hr
  refine ⟨⟨pc, hp, hr⟩, x, hx, ?_⟩
  have hz : sumOn PC.toWake s.ths = 0 := by
    refine Decidable.byContradiction fun hne => ?_
    obtain ⟨v, y, hv, hy⟩ := sumOn_pos (Nat.pos_of_ne_zero hne)
    cases y <;> first | exact hw v _ hv | exact absurd hy (Nat.lt_irrefl 0)
  have h1 := hg.counts.total
  have h2 := sumOn_le (f := Node.free) hx
  simp only [Node.free] at h2
  omega

/-- `notify_all` by `t` is waking threads, among them all that are registered; `u` is registered in node `q`. -/
def Waking (s : St) (t u q : Nat) : Prop := s.total = 0 ∧ (∃ c, s.ths[t]? = some (.waking c)) ∧ ∃ pc : PC, s.ths[u]? = some pc ∧ pc.reg q = true

theorem waking_step {s s' : St} {v t u q : Nat} {es : List Ev} (hg : Good s) (hw : Waking s t u q) (h : Step s v s' es) : Waking s' t u q ∨ Full s' u q := by
  obtain ⟨h0, ⟨c, hc⟩, pc, hp, hr⟩ := hw
  have hut : u ≠ t := by rintro rfl; rw [hc] at hp; cases hp; exact Bool.noConfusion hr
  have hown := hg.locks.own t _ hc rfl
  by_cases hv : v = t
  · subst hv
    have hp' : s'.ths[u]? = some pc := by rw [step_others h hut]; exact hp
    have is : ∀ y : PC, s.ths[v]? = some y → y = .waking c := fun y hy => by rw [hc] at hy; cases hy; rfl
    have hg' := good_step hg h
    cases h with
    | wakeLast h hx hm hcm =>
      refine .inr (full_of_total hg' h0 (fun w d hd => ?_) hp' hr)
      rcases get_set_cases hd with ⟨_, hd⟩ | ⟨hne, hd⟩
      · cases hd
      · exact hne (sole hg.locks hc rfl hd rfl).1
    | wakeNext h hx hm hcm => exact .inl ⟨h0, ⟨_, get_set_self h⟩, pc, hp', hr⟩
    | goto h hgo => have := is _ h; subst this; cases hgo
    | enter h hgo _ => have := is _ h; subst this; cases hgo
    | exit h hgo => have := is _ h; subst this; cases hgo
    | leave h hgo _ _ => have := is _ h; subst this; cases hgo
    | leave0 h hgo _ _ => have := is _ h; subst this; cases hgo
    | userLock h _ => cases is _ h
    | userUnlock h _ => cases is _ h
    | unlock h => cases is _ h
    | token h _ _ => cases is _ h
    | first h _ => cases is _ h
    | join h _ _ _ => cases is _ h
    | advance h _ _ _ => cases is _ h
    | around h _ _ _ => cases is _ h
    | create h _ => cases is _ h
    | relock h _ => cases is _ h
    | decide0 h _ => cases is _ h
    | decide h _ _ => cases is _ h
  · obtain ⟨_, _, _, _, h4, h5⟩ := bystander_step hg.locks hown hv h
    refine .inl ⟨h4.trans h0, ⟨c, by rw [step_others h (Ne.symm hv)]; exact hc⟩, ?_⟩
    by_cases huv : u = v
    · subst huv; exact h5 q pc hp hr
    · exact ⟨pc, by rw [step_others h huv]; exact hp, hr⟩

/-- A thread that has been registered leaves the wait only by returning. -/
def PC.inside (p : PC) : Prop := (∃ q, p.reg q = true) ∨ ∃ r, p = .relock r

theorem inside_step {s s' : St} {t u : Nat} {es : List Ev} {pc : PC} (hp : s.ths[u]? = some pc) (hi : pc.inside) (h : Step s t s' es) :
    (∃ pc' : PC, s'.ths[u]? = some pc' ∧ pc'.inside) ∨ ∃ r, es = [.ret u r] := by
  by_cases htu : t = u
  · subst htu
    have is : ∀ y : PC, s.ths[t]? = some y → y = pc := fun y hy => by rw [hp] at hy; cases hy; rfl
    cases h with
    | userLock h _ => exact .inl ⟨pc, hp, hi⟩
    | userUnlock h _ => exact .inl ⟨pc, hp, hi⟩
    | advance h _ _ _ => exact .inl ⟨pc, hp, hi⟩
    | leave h _ _ _ => exact .inl ⟨_, get_set_self h, .inr ⟨_, rfl⟩⟩
    | leave0 h _ _ _ => exact .inl ⟨_, get_set_self h, .inr ⟨_, rfl⟩⟩
    | relock h _ => exact .inr ⟨_, rfl⟩
    | goto h hgo =>
      have := is _ h; subst this
      cases hgo <;> first | exact .inr ⟨_, rfl⟩ | exact .inl ⟨_, get_set_self h, .inl ⟨_, beq_self_eq_true _⟩⟩ | (simp [PC.inside, PC.reg] at hi; done)
    | enter h hgo _ =>
      have := is _ h; subst this
      cases hgo <;> first | exact .inl ⟨_, get_set_self h, .inl ⟨_, beq_self_eq_true _⟩⟩ | (simp [PC.inside, PC.reg] at hi; done)
    | exit h hgo =>
      have := is _ h; subst this
      cases hgo <;> first | exact .inr ⟨_, rfl⟩ | exact .inl ⟨_, get_set_self h, .inl ⟨_, beq_self_eq_true _⟩⟩ | (simp [PC.inside, PC.reg] at hi; done)
    | unlock h => exact .inl ⟨_, get_set_self h, .inl ⟨_, beq_self_eq_true _⟩⟩
    | token h _ _ => exact .inl ⟨_, get_set_self h, .inl ⟨_, beq_self_eq_true _⟩⟩
    | first h _ => exact .inl ⟨_, get_set_self h, .inl ⟨_, beq_self_eq_true _⟩⟩
    | join h _ _ _ => exact .inl ⟨_, get_set_self h, .inl ⟨_, beq_self_eq_true _⟩⟩
    | create h _ => exact .inl ⟨_, get_set_self h, .inl ⟨_, beq_self_eq_true _⟩⟩
    | around h _ _ _ => have := is _ h; subst this; simp [PC.inside, PC.reg] at hi
    | decide0 h _ => have := is _ h; subst this; simp [PC.inside, PC.reg] at hi
    | decide h _ _ => have := is _ h; subst this; simp [PC.inside, PC.reg] at hi
    | wakeLast h _ _ _ => have := is _ h; subst this; simp [PC.inside, PC.reg] at hi
    | wakeNext h _ _ _ => have := is _ h; subst this; simp [PC.inside, PC.reg] at hi
  · exact .inl ⟨pc, by rw [step_others h (Ne.symm htu)]; exact hp, hi⟩

/-- A thread that the trace shows to wait has been registered. -/
theorem inside_of_waits {n : Nat} {tr : List Ev} {s : St} (h : Exec step (init n) tr s) (u : Nat) (hw : waits u tr = true) :
    ∃ pc : PC, s.ths[u]? = some pc ∧ pc.inside := by
  induction h with
  | init => cases hw
  | @snoc tr s s' l es hx hst ih =>
    obtain ⟨t, a⟩ := l
    have hst := step_sound hst
    have hby := step_by hst
    have quiet : ∀ e : Ev, waits u (tr ++ [e]) = (match e with
      | .registered t | .unlocked t => if t = u then true else waits u tr
      | .ret t _ => if t = u then false else waits u tr
      | _ => waits u tr) := fun e => by simp only [waits, List.foldl_append, List.foldl_cons, List.foldl_nil]; cases e <;> rfl
    by_cases hold : waits u tr = true
    · obtain ⟨pc, hp, hi⟩ := ih hold
      rcases inside_step hp hi hst with hk | ⟨r, rfl⟩
      · exact hk
      · rw [quiet] at hw; simp at hw
    · have key : ∀ e : Ev, es = [e] → e = .registered u ∨ e = .unlocked u := fun e he => by
        rw [he, quiet] at hw
        cases e <;> simp only at hw <;> first | exact absurd hw hold | skip
        · split at hw
          · next h => left; rw [h]
          · exact absurd hw hold
        · split at hw
          · next h => right; rw [h]
          · exact absurd hw hold
        · split at hw
          · cases hw
          · exact absurd hw hold
      have hne : es ≠ [] := by rintro rfl; rw [List.append_nil] at hw; exact hold hw
      cases hst with
      | userLock _ _ => exact absurd rfl hne
      | userUnlock _ _ => exact absurd rfl hne
      | goto h hgo => cases hgo <;> first | exact absurd rfl hne | (rcases key _ rfl with e | e <;> cases e)
      | enter _ _ _ => exact absurd rfl hne
      | exit h hgo => cases hgo <;> first | exact absurd rfl hne | (rcases key _ rfl with e | e <;> cases e)
      | first h _ => rcases key _ rfl with e | e <;> cases e; exact ⟨_, get_set_self h, .inl ⟨_, beq_self_eq_true _⟩⟩
      | join h _ _ _ => rcases key _ rfl with e | e <;> cases e; exact ⟨_, get_set_self h, .inl ⟨_, beq_self_eq_true _⟩⟩
      | create h _ => rcases key _ rfl with e | e <;> cases e; exact ⟨_, get_set_self h, .inl ⟨_, beq_self_eq_true _⟩⟩
      | unlock h => rcases key _ rfl with e | e <;> cases e; exact ⟨_, get_set_self h, .inl ⟨_, beq_self_eq_true _⟩⟩
      | leave0 _ _ _ _ => exact absurd rfl hne
      | advance _ _ _ _ => exact absurd rfl hne
      | around _ _ _ _ => exact absurd rfl hne
      | token _ _ _ => exact absurd rfl hne
      | _ => rcases key _ rfl with e | e <;> cases e

section
variable {n : Nat} {st : Nat → St} {lbl : Nat → Nat × Act} {ev : Nat → List Ev} (h : Endless step (init n) st lbl ev)
include h

theorem good (j : Nat) : Good (st j) := by obtain ⟨tr, hx⟩ := h.reachable j; exact good_exec hx

theorem steps (j : Nat) : Step (st j) (lbl j).1 (st (j + 1)) (ev j) := by
  have hst := h.next j
  rw [show lbl j = ((lbl j).1, (lbl j).2) from rfl] at hst
  exact step_sound hst

/-- The internal mutex is free again and again. -/
theorem mutex_free (hs : Scheduled step Next st lbl) : Often fun j => (st j).owner = none := by
  have key : ∀ (p k j u : Nat) (pc : PC), (st j).ths[u]? = some pc → pc.holds = true → pc.hold = p → Loops (st j) k → ∃ j', j ≤ j' ∧ (st j').owner = none := by
    intro p
    induction p using Nat.strongRecOn with
    | ind p ihp =>
    intro k
    induction k using Nat.strongRecOn with
    | ind k ihk =>
    intro j u pc hp hh hr hk
    obtain ⟨m, hm, ⟨hq1, hq2⟩, hl⟩ := hs.steps u j (fun m => (st m).ths[u]? = some pc ∧ Loops (st m) k) ⟨hp, hk⟩
      (fun m _ hq => by
        obtain ⟨s', es, hst⟩ := owner_go (good h m).counts (good h m).ring hq.1 hh
        exact ⟨.go, _, rfl, hst⟩)
      (fun m _ hq hl => ⟨by rw [step_others (steps h m) (Ne.symm hl)]; exact hq.1,
        bystander_loops (good h m).locks ((good h m).locks.own u pc hq.1 hh) hl (steps h m) hq.2⟩)
    have hst := steps h m
    rw [hl] at hst
    rcases owner_step (good h m) hq1 hh hst with hf | ⟨pc', hp', hh', hd⟩
    · exact ⟨m + 1, by omega, hf⟩
    · have : ∃ j', m + 1 ≤ j' ∧ (st j').owner = none := by
        rcases hd with hd | ⟨he, hd⟩
        · obtain ⟨k', hk'⟩ := loops_exists (good h (m + 1))
          exact ihp _ (by omega) k' (m + 1) u pc' hp' hh' rfl hk'
        · obtain ⟨k', hlt, hk'⟩ := hd k hq2
          exact ihk k' hlt (m + 1) u pc' hp' hh' (he.trans hr) hk'
      obtain ⟨j', h1, h2⟩ := this
      exact ⟨j', by omega, h2⟩
  intro i
  cases ho : (st i).owner with
  | none => exact ⟨i, Nat.le_refl _, ho⟩
  | some u =>
    obtain ⟨pc, hp, hh⟩ := (good h i).locks.owned u ho
    obtain ⟨k, hk⟩ := loops_exists (good h i)
    exact key _ k i u pc hp hh rfl hk

/-- A thread that again and again can go on takes a step. -/
theorem takes (hs : Served step Next st lbl) {i t : Nat} {p : PC} (hi : (st i).ths[t]? = some p)
    (hr : Often fun j => (st j).ths[t]? = some p → Ready step Next (st j) t) : ∃ j, i ≤ j ∧ (st j).ths[t]? = some p ∧ (lbl j).1 = t := by
  refine Classical.byContradiction fun hn => ?_
  have hall : ∀ j, i ≤ j → (st j).ths[t]? = some p := from_on (p := fun j => (st j).ths[t]? = some p) hi fun j hj hq => by
    rw [step_others (steps h j) (fun hl => hn ⟨j, hj, hq, hl.symm⟩)]; exact hq
  obtain ⟨j, hj, hl⟩ := hs t (fun m => by
    obtain ⟨j, hj, hr⟩ := hr (max m i)
    exact ⟨j, by omega, hr (hall j (by omega))⟩) i
  exact hn ⟨j, hj, hall j hj, hl⟩

/-- A wait that has only to lock the user's lock again ends. -/
theorem relock_ends (hs : Served step Next st lbl) (hu : Often fun j => (st j).user = none) {i t : Nat} {r : Result} (hi : (st i).ths[t]? = some (.relock r)) :
    ∃ j, i ≤ j ∧ .ret t r ∈ ev j := by
  obtain ⟨j, hj, hp, hl⟩ := takes h hs hi fun m => by
    obtain ⟨j, hj, hn⟩ := hu m
    exact ⟨j, hj, fun hp => ⟨.go, _, rfl, by simp only [step, hp, hn, if_true]; rfl⟩⟩
  have hst := h.next j
  rw [show lbl j = (t, (lbl j).2) by rw [← hl]] at hst
  generalize (lbl j).2 = a at hst
  simp only [step, hp] at hst
  cases a <;> simp at hst
  exact ⟨j, hj, by rw [← hst.2.2]; simp⟩

/-- A thread that owns the internal mutex, or waits for it or for nothing, can go on again and again. -/
theorem can_go (hs : Served step Next st lbl) {t : Nat} {p : PC} (hp : p.holds = true ∨ (∃ p', Enter p p') ∨ ∃ k q, p = .wUnlock k q) :
    Often fun j => (st j).ths[t]? = some p → Ready step Next (st j) t := by
  rcases hp with hh | ⟨p', he⟩ | ⟨k, q, rfl⟩
  · intro i
    refine ⟨i, Nat.le_refl _, fun hp => ?_⟩
    obtain ⟨s', es, hst⟩ := owner_go (good h i).counts (good h i).ring hp hh
    exact ⟨.go, _, rfl, hst⟩
  · intro i
    obtain ⟨j, hj, ho⟩ := mutex_free h hs.scheduled i
    refine ⟨j, hj, fun hp => ⟨.go, ?_⟩⟩
    cases he <;> exact ⟨_, rfl, by simp only [step, hp, ho, if_true]; rfl⟩
  · intro i
    exact ⟨i, Nat.le_refl _, fun hp => ⟨.go, _, rfl, by simp only [step, hp]; rfl⟩⟩

/-- A thread registered in a full node leaves it, provided that it can go on again and again. -/
theorem leaves_of (hs : Served step Next st lbl) {u q b : Nat}
    (hr : ∀ pc : PC, pc.reg q = true → pc.stage ≤ b → Often fun j => (st j).ths[u]? = some pc → Ready step Next (st j) u) :
    ∀ (d i : Nat) (pc : PC), d ≤ b → Full (st i) u q → (st i).ths[u]? = some pc → pc.stage = d → ∃ j r, i ≤ j ∧ (st j).ths[u]? = some (.relock r) := by
  intro d
  induction d using Nat.strongRecOn with
  | ind d ih =>
  intro i pc hd hf hp hst
  have hreg : pc.reg q = true := by obtain ⟨⟨pc1, hp1, h1⟩, _⟩ := hf; rw [hp] at hp1; cases hp1; exact h1
  obtain ⟨j, hj, hpj, hl⟩ := takes h hs hp (hr pc hreg (by omega))
  have hfull : ∀ m, i ≤ m → Full (st m) u q ∨ ∃ m', m' ≤ m ∧ i ≤ m' ∧ ∃ r, (st m').ths[u]? = some (.relock r) :=
    from_on (p := fun m => Full (st m) u q ∨ ∃ m', m' ≤ m ∧ i ≤ m' ∧ ∃ r, (st m').ths[u]? = some (.relock r)) (.inl hf) fun m hm hq => by
      rcases hq with hq | ⟨m', h1, h2, h3⟩
      · rcases full_step (good h m) hq (steps h m) with hq | ⟨_, r, hr⟩
        · exact .inl hq
        · exact .inr ⟨m + 1, by omega, by omega, r, hr⟩
      · exact .inr ⟨m', by omega, h2, h3⟩
  rcases hfull j hj with hfj | ⟨m', _, h2, r, h3⟩
  · have hst' := steps h j
    rw [hl] at hst'
    rcases stage_step (good h j) hfj hpj hst' with ⟨r, hr⟩ | ⟨pc', hp', hlt⟩
    · exact ⟨j + 1, r, by omega, hr⟩
    · rcases hfull (j + 1) (by omega) with hf' | ⟨m', _, h2, r, h3⟩
      · obtain ⟨j', r, h1, h2⟩ := ih _ (by omega) (j + 1) pc' (by omega) hf' hp' rfl
        exact ⟨j', r, by omega, h2⟩
      · exact ⟨m', r, h2, h3⟩
  · exact ⟨m', r, h2, h3⟩

/-- The semaphore of a full node has units again and again, as long as a thread is registered there. -/
theorem units_often (hs : Served step Next st lbl) (hn : n ≤ 1073741824) {i u q : Nat} (hall : ∀ j, i ≤ j → Full (st j) u q) :
    Often fun j => ∃ x : Node, (st j).nodes[q]? = some x ∧ 0 < x.tok := by
  refine Classical.byContradiction fun hno => ?_
  obtain ⟨m, hm⟩ := not_often hno
  have h0 : ∀ j, max i m ≤ j → ∀ x : Node, (st j).nodes[q]? = some x → x.tok = 0 := fun j hj x hx =>
    Nat.eq_zero_of_not_pos fun hp => hm j (by omega) ⟨x, hx, hp⟩
  have hlen : ∀ j, (st j).ths.length = n := fun j => by
    obtain ⟨tr, hx⟩ := h.reachable j
    exact threads_exec hx
  have hpos : ∀ j, max i m ≤ j → 0 < (st j).ths.countP (PC.flight q) := fun j hj => by
    obtain ⟨⟨pc, hp, hr⟩, x, hx, hle⟩ := hall j (by omega)
    obtain ⟨y, hy, hw⟩ := reg_counted (good h j).counts hp hr
    rw [hx] at hy; cases hy
    have := (good h j).counts.tok (by rw [hlen]; exact hn) q x hx
    have := h0 j hj x hx
    omega
  have hstep : ∀ j, max i m ≤ j → ∃ pc pc', (st j).ths[(lbl j).1]? = some pc ∧ (st (j + 1)).ths[(lbl j).1]? = some pc' ∧ (pc'.flight q = true → pc.flight q = true) ∧
      (st (j + 1)).ths.countP (PC.flight q) + b2n (pc.flight q) = (st j).ths.countP (PC.flight q) + b2n (pc'.flight q) := fun j hj => by
    obtain ⟨pc, pc', hp, he⟩ := step_ths (steps h j)
    have hp' : (st (j + 1)).ths[(lbl j).1]? = some pc' := by rw [he, get_set_self hp]
    exact ⟨pc, pc', hp, hp', flight_step (steps h j) (h0 j hj) hp hp', by rw [he]; exact countP_set hp⟩
  obtain ⟨k, hk, hconst⟩ := settles (f := fun j => (st j).ths.countP (PC.flight q)) (i := max i m) fun j hj => by
    obtain ⟨pc, pc', _, _, h3, h4⟩ := hstep j hj
    cases h5 : pc'.flight q
    · rw [h5] at h4; simp only [b2n_false] at h4; show _ ≤ _; omega
    · rw [h5, h3 h5] at h4; show _ ≤ _; omega
  obtain ⟨v, pv, hv, hfv⟩ := exists_of_countP_pos (hpos k hk)
  have hstay : ∀ j, k ≤ j → ∃ p : PC, (st j).ths[v]? = some p ∧ p.flight q = true :=
    from_on (p := fun j => ∃ p : PC, (st j).ths[v]? = some p ∧ p.flight q = true) ⟨pv, hv, hfv⟩ fun j hj ⟨p, hp, hf⟩ => by
      by_cases hl : (lbl j).1 = v
      · obtain ⟨pc, pc', h1, h2, _, h4⟩ := hstep j (by omega)
        rw [hl] at h1 h2
        rw [hp] at h1; cases h1
        refine ⟨pc', h2, ?_⟩
        have e1 := hconst j hj
        have e2 := hconst (j + 1) (by omega)
        cases h5 : pc'.flight q
        · rw [h5, hf] at h4; simp at h4; omega
        · rfl
      · exact ⟨p, by rw [step_others (steps h j) (Ne.symm hl)]; exact hp, hf⟩
  have hreg : pv.reg q = true := by cases pv <;> first | exact Bool.noConfusion hfv | exact hfv
  have hstage : pv.stage ≤ 2 := by cases pv <;> first | exact Bool.noConfusion hfv | exact of_decide_eq_true rfl
  obtain ⟨j, r, hj, hp⟩ := leaves_of h hs (u := v) (q := q) (b := 2) (fun pc hr hb => by
      refine can_go h hs ?_
      cases pc <;> first
        | exact Bool.noConfusion hr
        | exact .inl rfl
        | exact .inr (.inl ⟨_, .tok _ _⟩)
        | exact .inr (.inl ⟨_, .expired _⟩)
        | exact .inr (.inl ⟨_, .failed _⟩)
        | exact absurd hb (of_decide_eq_true rfl)) _ k pv hstage ⟨⟨pv, hv, hreg⟩, (hall k (by omega)).2⟩ hv rfl
  obtain ⟨p, hp1, hf1⟩ := hstay j hj
  rw [hp] at hp1; cases hp1
  exact Bool.noConfusion hf1

/-- A thread registered in a full node leaves it. -/
theorem full_leaves (hs : Served step Next st lbl) (hn : n ≤ 1073741824) {i u q : Nat} (hf : Full (st i) u q) :
    ∃ j r, i ≤ j ∧ (st j).ths[u]? = some (.relock r) := by
  refine Classical.byContradiction fun hno => ?_
  have hall : ∀ j, i ≤ j → Full (st j) u q := from_on (p := fun j => Full (st j) u q) hf fun j hj hq => by
    rcases full_step (good h j) hq (steps h j) with hq | ⟨_, r, hr⟩
    · exact hq
    · exact absurd ⟨j + 1, r, by omega, hr⟩ hno
  obtain ⟨pc, hp, _⟩ := hf.1
  refine hno (leaves_of h hs (u := u) (q := q) (b := 5) (fun pc hr hb => ?_) _ i pc ?_ hf hp rfl)
  · clear hb
    cases pc <;> first
      | exact Bool.noConfusion hr
      | exact can_go h hs (.inl rfl)
      | exact can_go h hs (.inr (.inl ⟨_, .tok _ _⟩))
      | exact can_go h hs (.inr (.inl ⟨_, .expired _⟩))
      | exact can_go h hs (.inr (.inl ⟨_, .failed _⟩))
      | exact can_go h hs (.inr (.inr ⟨_, _, rfl⟩))
      | skip
    case blocked k p =>
      have hpq : p = q := by simpa [PC.reg] using hr
      subst hpq
      intro m
      obtain ⟨j, hj, x, hx, ht⟩ := units_often h hs hn hall m
      exact ⟨j, hj, fun hp => ⟨.go, _, rfl, by simp only [step, hp, hx, if_pos ht]; rfl⟩⟩
  · cases pc <;> exact of_decide_eq_true rfl

/-- While `notify_all` wakes all threads, a registered thread comes to leave its node. -/
theorem waking_leaves (hs : Served step Next st lbl) (hn : n ≤ 1073741824) {i t u q : Nat} (hw : Waking (st i) t u q) :
    ∃ j r, i ≤ j ∧ (st j).ths[u]? = some (.relock r) := by
  have : ∃ j, i ≤ j ∧ Full (st j) u q := by
    refine Classical.byContradiction fun hno => ?_
    have hall : ∀ j, i ≤ j → Waking (st j) t u q := from_on (p := fun j => Waking (st j) t u q) hw fun j hj hq => by
      rcases waking_step (good h j) hq (steps h j) with hq | hq
      · exact hq
      · exact absurd ⟨j + 1, by omega, hq⟩ hno
    obtain ⟨j, hj, ho⟩ := mutex_free h hs.scheduled i
    obtain ⟨c, hc⟩ := (hall j hj).2.1
    rw [(good h j).locks.own t _ hc rfl] at ho
    cases ho
  obtain ⟨j, hj, hf⟩ := this
  obtain ⟨j', r, h1, h2⟩ := full_leaves h hs hn hf
  exact ⟨j', r, by omega, h2⟩

/-- When all waiters have been claimed by notifications, a registered thread comes to leave its node. -/
theorem total_leaves (hs : Served step Next st lbl) (hn : n ≤ 1073741824) {i u q : Nat} {pc : PC} (h0 : (st i).total = 0) (hp : (st i).ths[u]? = some pc)
    (hr : pc.reg q = true) : ∃ j r, i ≤ j ∧ (st j).ths[u]? = some (.relock r) := by
  by_cases hw : ∃ t c : Nat, (st i).ths[t]? = some (PC.waking c)
  · obtain ⟨t, c, hc⟩ := hw
    exact waking_leaves h hs hn ⟨h0, ⟨c, hc⟩, pc, hp, hr⟩
  · exact full_leaves h hs hn (full_of_total (good h i) h0 (fun v c hv => hw ⟨v, c, hv⟩) hp hr)

/-- A call of notify that waits for the internal mutex or owns it ends. -/
theorem notify_ends (hs : Served step Next st lbl) {i t : Nat} {all : Bool} (hi : (st i).ths[t]? = some (.nEnter all)) : ∃ j, i ≤ j ∧ .notified t ∈ ev j := by
  obtain ⟨j, hj, hp, hl⟩ := takes h hs hi (can_go h hs (.inr (.inl ⟨_, .notify all⟩)))
  have hp' : (st (j + 1)).ths[t]? = some (.nCheck all) := by
    have hst := h.next j
    rw [show lbl j = (t, (lbl j).2) by rw [← hl]] at hst
    generalize (lbl j).2 = a at hst
    simp only [step, hp] at hst
    cases a <;> simp at hst
    obtain ⟨_, e, _⟩ := hst
    rw [← e]; exact get_set_self hp
  refine Classical.byContradiction fun hno => ?_
  have hall : ∀ k, j + 1 ≤ k → ∃ p : PC, (st k).ths[t]? = some p ∧ ((∃ a, p = .nCheck a) ∨ (∃ c, p = .waking c) ∨ p = .nExit) :=
    from_on (p := fun k => ∃ p : PC, (st k).ths[t]? = some p ∧ ((∃ a, p = .nCheck a) ∨ (∃ c, p = .waking c) ∨ p = .nExit)) ⟨_, hp', .inl ⟨_, rfl⟩⟩
      fun k hk ⟨p, hp, hq⟩ => by
        by_cases hl : (lbl k).1 = t
        · have hst := steps h k
          rw [hl] at hst
          generalize hes : ev k = es at hst
          have hno' : .notified t ∉ es := fun hm => hno ⟨k, by omega, by rw [hes]; exact hm⟩
          generalize st (k + 1) = s' at hst ⊢
          have is : ∀ y : PC, (st k).ths[t]? = some y → y = p := fun y hy => by rw [hp] at hy; cases hy; rfl
          cases hst with
          | decide0 h _ => exact ⟨_, get_set_self h, .inr (.inr rfl)⟩
          | decide h _ _ => exact ⟨_, get_set_self h, .inr (.inl ⟨_, rfl⟩)⟩
          | wakeLast h _ _ _ => exact ⟨_, get_set_self h, .inr (.inr rfl)⟩
          | wakeNext h _ _ _ => exact ⟨_, get_set_self h, .inr (.inl ⟨_, rfl⟩)⟩
          | goto h hgo => have := is _ h; subst this; cases hgo <;> simp at hq
          | enter h hgo _ => have := is _ h; subst this; cases hgo <;> simp at hq
          | exit h hgo =>
            have := is _ h; subst this
            cases hgo with
            | notify => exact absurd (List.mem_singleton.mpr rfl) hno'
            | _ => simp at hq
          | leave h hgo _ _ => have := is _ h; subst this; cases hgo <;> simp at hq
          | leave0 h hgo _ _ => have := is _ h; subst this; cases hgo <;> simp at hq
          | userLock h _ => have := is _ h; subst this; simp at hq
          | userUnlock h _ => have := is _ h; subst this; simp at hq
          | unlock h => have := is _ h; subst this; simp at hq
          | token h _ _ => have := is _ h; subst this; simp at hq
          | first h _ => have := is _ h; subst this; simp at hq
          | join h _ _ _ => have := is _ h; subst this; simp at hq
          | advance h _ _ _ => have := is _ h; subst this; simp at hq
          | around h _ _ _ => have := is _ h; subst this; simp at hq
          | create h _ => have := is _ h; subst this; simp at hq
          | relock h _ => have := is _ h; subst this; simp at hq
        · exact ⟨p, by rw [step_others (steps h k) (Ne.symm hl)]; exact hp, hq⟩
  obtain ⟨k, hk, ho⟩ := mutex_free h hs.scheduled (j + 1)
  obtain ⟨p, hp, hq⟩ := hall k hk
  rw [(good h k).locks.own t p hp (by rcases hq with ⟨_, rfl⟩ | ⟨_, rfl⟩ | rfl <;> rfl)] at ho
  cases ho

theorem notify_begins {i t : Nat} {all : Bool} (hi : .notify t all ∈ ev i) : (st (i + 1)).ths[t]? = some (.nLoad all) := by
  have hst := steps h i
  generalize lbl i = l at hst
  generalize ev i = es at hst hi
  generalize st (i + 1) = s' at hst ⊢
  have one : ∀ e : Ev, es = [e] → e = .notify t all := fun e he => by rw [he] at hi; exact (List.mem_singleton.mp hi).symm
  cases hst with
  | goto h hgo =>
    cases hgo with
    | notify b => cases one _ rfl; exact get_set_self h
    | _ => first | (cases hi; done) | cases one _ rfl
  | exit h hgo => cases hgo <;> first | (cases hi; done) | cases one _ rfl
  | _ => first | (cases hi; done) | cases one _ rfl

omit h in
theorem load_go {t : Nat} {all : Bool} : Often fun j => (st j).ths[t]? = some (.nLoad all) → Ready step Next (st j) t := fun i =>
  ⟨i, Nat.le_refl _, fun hp => by
    by_cases h0 : 0 < (st i).total
    · exact ⟨.go, _, rfl, by simp only [step, hp, if_pos h0]; rfl⟩
    · exact ⟨.go, _, rfl, by simp only [step, hp, if_neg h0]; rfl⟩⟩

theorem load_step {j t : Nat} {all : Bool} (hp : (st j).ths[t]? = some (.nLoad all)) (hl : (lbl j).1 = t) :
    (.notified t ∈ ev j ∧ (st j).total = 0) ∨ (st (j + 1)).ths[t]? = some (.nEnter all) := by
  have hst := h.next j
  rw [show lbl j = (t, (lbl j).2) by rw [← hl]] at hst
  generalize (lbl j).2 = a at hst
  simp only [step, hp] at hst
  cases a <;> simp at hst
  split at hst
  · simp at hst
    right; rw [← hst.1]; exact get_set_self hp
  · simp at hst
    left; exact ⟨by rw [← hst.2]; simp, by omega⟩

theorem enter_step {j t : Nat} {all : Bool} (hp : (st j).ths[t]? = some (.nEnter all)) (hl : (lbl j).1 = t) :
    (st (j + 1)).ths[t]? = some (.nCheck all) := by
  have hst := h.next j
  rw [show lbl j = (t, (lbl j).2) by rw [← hl]] at hst
  generalize (lbl j).2 = a at hst
  simp only [step, hp] at hst
  cases a <;> simp at hst
  obtain ⟨_, e, _⟩ := hst
  rw [← e]; exact get_set_self hp

theorem check_step {j t : Nat} (hp : (st j).ths[t]? = some (.nCheck true)) (hl : (lbl j).1 = t) : (st (j + 1)).total = 0 := by
  have hst := h.next j
  rw [show lbl j = (t, (lbl j).2) by rw [← hl]] at hst
  generalize (lbl j).2 = a at hst
  simp only [step, hp] at hst
  cases a <;> simp at hst
  split at hst
  · next h0 => simp at hst; rw [← hst.1]; exact h0
  · simp at hst; rw [← hst.1]

end

theorem took_relock {s s' : St} {t u c : Nat} {es : List Ev} (h : Step s t s' es) (he : .took u c ∈ es) : ∃ r, r ≠ .timeout ∧ s'.ths[u]? = some (.relock r) := by
  have one : ∀ e : Ev, es = [e] → e = .took u c := fun e h => by rw [h] at he; exact (List.mem_singleton.mp he).symm
  cases h with
  | goto h hgo => cases hgo <;> first | (cases he; done) | (cases one _ rfl; done)
  | exit h hgo => cases hgo <;> first | (cases he; done) | (cases one _ rfl; done)
  | @leave pc q r x h hgo _ _ => cases one _ rfl; exact ⟨r, by cases hgo <;> exact Result.noConfusion, get_set_self h⟩
  | _ => first | (cases he; done) | (cases one _ rfl; done)

end Verif.WinCv
