import Verif.Proof.WinCondVarGrant
import Verif.Proof.WinCondVarWake

/-! # Single calls; progress -/

namespace Verif.WinCv

/-! ## Units and unlocks in one call -/

def Ev.by' : Ev → Nat
  | .called t _ | .registered t | .unlocked t | .took t _ | .ret t _ | .notify t _ | .decided t _ _ | .issued t _
  | .notified t => t

/-- Units consumed and unlocks done so far in the current call, as a function of the position. -/
def PC.callOk (u l : Nat) : PC → Prop
  | .wTimer | .wEnter _ | .wInit _ | .wLoop _ _ | .wNew _ _ | .wExit _ _ | .wAbort | .wUnlock _ _ => u = 0 ∧ l = 0
  | .blocked _ _ | .gotTok _ _ | .inTok _ _ | .expired _ | .inExpired _ | .failed _ | .inFailed _ => u = 0 ∧ l = 1
  | .relock .noTimeout => u = 1 ∧ l = 1
  | .relock .timeout => u = 0 ∧ l = 1
  | .relock .threw => u ≤ 1 ∧ l = 1
  | _ => True

def Calls (tr : List Ev) (s : St) : Prop :=
  ∀ (t : Nat) (pc : PC), s.ths[t]? = some pc → pc.callOk (unitsInCall t tr) (unlocksInCall t tr)

theorem callStep_other {t : Nat} (a : Nat × Nat) {e : Ev} (h : e.by' ≠ t) : callStep t a e = a := by
  cases e <;> simp only [callStep] <;> exact if_neg h

theorem step_by {s s' : St} {t : Nat} {es : List Ev} (h : Step s t s' es) :
    (∀ e ∈ es, e.by' = t) ∧ es.length ≤ 1 := by
  have nil : ((∀ e ∈ ([] : List Ev), e.by' = t) ∧ ([] : List Ev).length ≤ 1) := ⟨(by intro e he; cases he), Nat.zero_le _⟩
  have one : ∀ e : Ev, e.by' = t → ((∀ f ∈ [e], f.by' = t) ∧ [e].length ≤ 1) :=
    fun e he => ⟨fun f hf => by rw [List.mem_singleton.mp hf]; exact he, Nat.le_refl _⟩
  cases h <;> first
    | exact nil
    | exact one _ rfl
    | skip
  case goto h hg => cases hg <;> first | exact nil | exact one _ rfl
  case exit h hg => cases hg <;> first | exact nil | exact one _ rfl

theorem step_others {s s' : St} {t : Nat} {es : List Ev} (h : Step s t s' es) {u : Nat} (hu : u ≠ t) :
    s'.ths[u]? = s.ths[u]? := by
  cases h <;> first | rfl | exact get_set_ne (Ne.symm hu)

theorem inCall_snoc {t : Nat} (tr : List Ev) (e : Ev) :
    unitsInCall t (tr ++ [e]) = (callStep t (unitsInCall t tr, unlocksInCall t tr) e).1 ∧
    unlocksInCall t (tr ++ [e]) = (callStep t (unitsInCall t tr, unlocksInCall t tr) e).2 := by
  simp [unitsInCall, unlocksInCall]

theorem calls_step {tr : List Ev} {s s' : St} {t : Nat} {es : List Ev} (hi : Calls tr s) (h : Step s t s' es) :
    Calls (tr ++ es) s' := by
  intro u pc hu
  by_cases hut : u = t
  · subst hut
    have hme := fun (x : PC) hx => hi u x hx
    generalize ha : unitsInCall u tr = a at hme
    generalize hb : unlocksInCall u tr = b at hme
    have snoc : ∀ e, unitsInCall u (tr ++ [e]) = (callStep u (a, b) e).1 ∧
        unlocksInCall u (tr ++ [e]) = (callStep u (a, b) e).2 := by
      intro e; rw [← ha, ← hb]; exact inCall_snoc tr e
    cases h with
    | userLock h _ => rw [show s.ths[u]? = some pc from hu] at h; cases h; exact trivial
    | userUnlock h _ => rw [show s.ths[u]? = some pc from hu] at h; cases h; exact trivial
    | goto h hg =>
      rw [get_set_self h] at hu
      cases hu
      have := hme _ h
      cases hg <;> first
        | exact trivial
        | (rw [List.append_nil, ha, hb]; exact this)
        | (rw [(snoc _).1, (snoc _).2]; simp [callStep, PC.callOk])
    | enter h hg _ =>
      rw [get_set_self h] at hu
      cases hu
      have := hme _ h
      rw [List.append_nil, ha, hb]
      cases hg <;> exact this
    | exit h hg =>
      rw [get_set_self h] at hu
      cases hu
      have := hme _ h
      cases hg <;> first
        | exact trivial
        | (rw [List.append_nil, ha, hb]; exact this)
    | first h _ =>
      rw [get_set_self h] at hu; cases hu
      rw [(snoc _).1, (snoc _).2]; have := hme _ h; exact this
    | join h _ _ _ =>
      rw [get_set_self h] at hu; cases hu
      rw [(snoc _).1, (snoc _).2]; have := hme _ h; exact this
    | advance h _ _ _ =>
      rw [List.append_nil, ha, hb]; exact hme _ hu
    | around h _ _ _ =>
      rw [get_set_self h] at hu; cases hu
      rw [List.append_nil, ha, hb]; have := hme _ h; exact this
    | create h _ =>
      rw [get_set_self h] at hu; cases hu
      rw [(snoc _).1, (snoc _).2]; have := hme _ h; exact this
    | unlock h =>
      rw [get_set_self h] at hu; cases hu
      rw [(snoc _).1, (snoc _).2]
      have := hme _ h
      simp only [PC.callOk] at this
      simp [callStep, PC.callOk, this.1, this.2]
    | token h _ _ =>
      rw [get_set_self h] at hu; cases hu
      rw [List.append_nil, ha, hb]; have := hme _ h; exact this
    | leave h hg _ _ =>
      rw [get_set_self h] at hu; cases hu
      rw [(snoc _).1, (snoc _).2]
      have := hme _ h
      cases hg <;> simp only [PC.callOk] at this <;> simp [callStep, PC.callOk, this.1, this.2]
    | leave0 h hg _ _ =>
      rw [get_set_self h] at hu; cases hu
      rw [List.append_nil, ha, hb]
      have := hme _ h
      cases hg <;> simp only [PC.callOk] at this <;> simp [PC.callOk, this.1, this.2]
    | relock h _ => rw [get_set_self h] at hu; cases hu; exact trivial
    | decide0 h _ => rw [get_set_self h] at hu; cases hu; exact trivial
    | decide h _ _ => rw [get_set_self h] at hu; cases hu; exact trivial
    | wakeLast h _ _ _ => rw [get_set_self h] at hu; cases hu; exact trivial
    | wakeNext h _ _ _ => rw [get_set_self h] at hu; cases hu; exact trivial
  · rw [step_others h hut] at hu
    have h1 := hi u pc hu
    have h2 := (step_by h).1
    have h3 : ∀ (l : List Ev) (a : Nat × Nat), (∀ e ∈ l, e.by' = t) → l.foldl (callStep u) a = a := by
      intro l
      induction l with
      | nil => intros; rfl
      | cons e l ih =>
        intro a hl
        rw [List.foldl_cons, callStep_other a (by rw [hl e (List.mem_cons_self ..)]; exact Ne.symm hut)]
        exact ih a (fun e he => hl e (List.mem_cons_of_mem _ he))
    unfold unitsInCall unlocksInCall
    rw [List.foldl_append, h3 es _ h2]
    exact h1

theorem calls_exec {n : Nat} {tr : List Ev} {s : St} (h : Exec step (init n) tr s) : Calls tr s :=
  h.invariant Calls (fun t pc h => by rw [get_replicate h]; exact trivial)
    (fun _ _ l _ _ hi hs => by obtain ⟨t, a⟩ := l; exact calls_step hi (step_sound hs))

/-! ## Units put into the semaphores -/

theorem allIssued_append (tr es : List Ev) : allIssued (tr ++ es) = allIssued tr + allIssued es := by
  induction tr with
  | nil => simp [allIssued]
  | cons e tr ih => cases e <;> simp [allIssued, ih] <;> omega

theorem issued_step {tr : List Ev} {s s' : St} {t : Nat} {es : List Ev}
    (hi : allIssued tr + sumOn PC.toWake s.ths = allGranted tr) (h : Step s t s' es) :
    allIssued (tr ++ es) + sumOn PC.toWake s'.ths = allGranted (tr ++ es) := by
  rw [allIssued_append, allGranted_append]
  have mv : ∀ {pc pc' : PC}, s.ths[t]? = some pc → pc'.toWake = pc.toWake →
      sumOn PC.toWake (s.ths.set t pc') = sumOn PC.toWake s.ths := fun h he => sumOn_set_same h he
  have fin : ∀ {pc pc' : PC} {es : List Ev}, s.ths[t]? = some pc → pc'.toWake = pc.toWake → allIssued es = 0 →
      allGranted es = 0 →
      allIssued tr + allIssued es + sumOn PC.toWake (s.ths.set t pc') = allGranted tr + allGranted es := by
    intro pc pc' es h h1 h2 h3
    rw [h2, h3, mv h h1]; exact hi
  cases h with
  | userLock h _ => exact hi
  | userUnlock h _ => exact hi
  | goto h hg => exact fin h (by cases hg <;> rfl) (by cases hg <;> rfl) (by cases hg <;> rfl)
  | enter h hg _ => exact fin h (by cases hg <;> rfl) rfl rfl
  | exit h hg => exact fin h (by cases hg <;> rfl) (by cases hg <;> rfl) (by cases hg <;> rfl)
  | first h _ => exact fin h rfl rfl rfl
  | join h _ _ _ => exact fin h rfl rfl rfl
  | advance h _ _ _ => exact hi
  | around h _ _ _ => exact fin h rfl rfl rfl
  | create h _ => exact fin h rfl rfl rfl
  | unlock h => exact fin h rfl rfl rfl
  | token h _ _ => exact fin h rfl rfl rfl
  | leave h hg _ _ => exact fin h (by cases hg <;> rfl) rfl rfl
  | leave0 h hg _ _ => exact fin h (by cases hg <;> rfl) rfl rfl
  | relock h _ => exact fin h rfl rfl rfl
  | decide0 h _ => exact fin h rfl rfl rfl
  | @decide all c h _ _ =>
    have h1 := sumOn_set (f := PC.toWake) (b := .waking c) h
    simp only [PC.toWake] at h1
    simp only [allIssued, allGranted]
    omega
  | @wakeLast c x m h _ hm hc =>
    have h1 := sumOn_set (f := PC.toWake) (b := .nExit) h
    simp only [PC.toWake] at h1
    simp only [allIssued, allGranted]
    omega
  | @wakeNext c x m h _ hm hc =>
    have h1 := sumOn_set (f := PC.toWake) (b := .waking (c - m)) h
    simp only [PC.toWake] at h1
    simp only [allIssued, allGranted]
    omega

theorem issued_exec {n : Nat} {tr : List Ev} {s : St} (h : Exec step (init n) tr s) :
    allIssued tr + sumOn PC.toWake s.ths = allGranted tr := by
  have := h.invariant (fun tr s => allIssued tr + sumOn PC.toWake s.ths = allGranted tr)
    (by rw [show sumOn PC.toWake (init n).ths = 0 from sumOn_replicate (f := PC.toWake) (a := .idle) rfl n]; rfl)
    (fun _ _ l _ _ hi hs => by
      obtain ⟨t, a⟩ := l
      exact issued_step hi (step_sound hs))
  exact this

/-! ## Cutting an execution at an event -/

theorem exec_cut {n : Nat} {tr : List Ev} {s : St} (h : Exec step (init n) tr s) {pre post : List Ev} {e : Ev}
    (he : tr = pre ++ e :: post) :
    ∃ s1 t a s2, Exec step (init n) pre s1 ∧ step s1 (t, a) = some (s2, [e]) ∧ Exec step s2 post s := by
  induction h generalizing post with
  | init => simp at he
  | @snoc tr s s' l es hx hs ih =>
    obtain ⟨t, a⟩ := l
    have hst := step_sound hs
    have hlen := (step_by hst).2
    cases es with
    | nil =>
      obtain ⟨s1, t1, a1, s2, h1, h2, h3⟩ := ih (post := post) (by simpa using he)
      exact ⟨s1, t1, a1, s2, h1, h2, by simpa using h3.snoc hs⟩
    | cons f rest =>
      cases rest with
      | cons g rest => simp only [List.length_cons] at hlen; omega
      | nil =>
        rcases List.eq_nil_or_concat post with rfl | ⟨post', g, rfl⟩
        · obtain ⟨rfl, h2⟩ := List.append_inj' (s₁ := tr) (t₁ := [f]) (s₂ := pre) (t₂ := [e]) he rfl
          cases h2
          exact ⟨s, t, a, s', hx, hs, .init⟩
        · have h0 : tr ++ [f] = (pre ++ e :: post') ++ [g] := by simpa using he
          obtain ⟨h1, h2⟩ := List.append_inj' h0 rfl
          cases h2
          obtain ⟨s1, t1, a1, s2, h1, h2, h3⟩ := ih h1
          refine ⟨s1, t1, a1, s2, h1, h2, ?_⟩
          rw [List.concat_eq_append]
          exact h3.snoc hs

/-! ## The owner of the internal mutex can step -/

theorem owner_go {s : St} (hc : Counts s) (hr : Ring s) {t : Nat} {pc : PC} (h : s.ths[t]? = some pc)
    (hh : pc.holds = true) : ∃ s' es, step s (t, .go) = some (s', es) := by
  have hnode : ∀ q, q < s.nodes.length → ∃ x, s.nodes[q]? = some x := fun q hq => ⟨_, List.getElem?_eq_getElem hq⟩
  cases pc <;> first | cases hh; done | skip
  case wInit k =>
    by_cases hn : s.nodes = [] <;> exact ⟨_, _, by simp only [step, h, hn, if_true, if_false]; rfl⟩
  case wLoop k e =>
    have hne : s.nodes ≠ [] := by intro h0; have := hr.loop t k e h; rw [h0] at this; simp at this
    obtain ⟨x, hx⟩ := hnode _ (hr.ptr hne).2
    simp only [step, h, hx]
    split
    · exact ⟨_, _, rfl⟩
    · split <;> exact ⟨_, _, rfl⟩
  case wNew k e =>
    obtain ⟨x, hx⟩ := hnode _ (hr.new t k e h)
    exact ⟨_, _, by simp only [step, h, hx]; rfl⟩
  case wExit k q => exact ⟨_, _, by simp only [step, h]; rfl⟩
  case wAbort => exact ⟨_, _, by simp only [step, h]; rfl⟩
  case inTok k q =>
    obtain ⟨x, hx⟩ := reg_node hc h (beq_self_eq_true q)
    by_cases hn : 0 < x.n
    · exact ⟨_, _, by simp only [step, h, hx, if_pos hn]; rfl⟩
    · exact ⟨_, _, by simp only [step, h, hx, if_neg hn]; rfl⟩
  case inExpired q =>
    obtain ⟨x, hx⟩ := reg_node hc h (beq_self_eq_true q)
    by_cases hn : 0 < x.n
    · exact ⟨_, _, by simp only [step, h, hx, if_pos hn]; rfl⟩
    · exact ⟨_, _, by simp only [step, h, hx, if_neg hn]; rfl⟩
  case inFailed q =>
    obtain ⟨x, hx⟩ := reg_node hc h (beq_self_eq_true q)
    by_cases hn : 0 < x.n
    · exact ⟨_, _, by simp only [step, h, hx, if_pos hn]; rfl⟩
    · exact ⟨_, _, by simp only [step, h, hx, if_neg hn]; rfl⟩
  case nCheck all =>
    by_cases hn : s.total = 0
    · exact ⟨_, _, by simp only [step, h, if_pos hn]; rfl⟩
    · exact ⟨_, _, by simp only [step, h, if_neg hn]; rfl⟩
  case waking c =>
    have h1 := hc.waking t c h
    have h2 := sumOn_le (f := PC.toWake) h
    simp only [PC.toWake] at h2
    have h3 := hc.total
    have hne : s.nodes ≠ [] := by
      intro h0; rw [h0] at h3; simp only [sumOn] at h3; omega
    obtain ⟨x, hx⟩ := hnode _ (hr.ptr hne).1
    by_cases hm : c - min (x.w - x.n) c = 0
    · exact ⟨_, _, by simp only [step, h, hx, if_pos hm]; rfl⟩
    · exact ⟨_, _, by simp only [step, h, hx, if_neg hm]; rfl⟩
  case nExit => exact ⟨_, _, by simp only [step, h]; rfl⟩

theorem threads_step {s s' : St} {t : Nat} {es : List Ev} (h : Step s t s' es) : s'.ths.length = s.ths.length := by
  cases h <;> simp

theorem threads_exec {n : Nat} {tr : List Ev} {s : St} (h : Exec step (init n) tr s) : s.ths.length = n := by
  refine h.invariant' (fun s => s.ths.length = n) (by simp [init]) (fun s l _ _ hi hs => ?_)
  obtain ⟨t, a⟩ := l
  have h1 := step_sound hs
  cases h1 <;> simpa using hi

/-- Some thread can take a step of its own if a notification is outstanding. -/
theorem outstanding_of {tr : List Ev} {s : St} (hl : Locks s) (hc : Counts s) (hr : Ring s) (hg : Grants tr s)
    (hn : s.ths.length ≤ 1073741824) (ho : allConsumed tr < allGranted tr) :
    ∃ (t : Nat) (pc : PC) (s' : St) (es : List Ev), s.ths[t]? = some pc ∧ (pc.waiting = true ∨ s.owner = some t) ∧
      step s (t, .go) = some (s', es) := by
  cases hown : s.owner with
  | some t =>
    obtain ⟨pc, ht, hh⟩ := hl.owned t hown
    obtain ⟨s', es, hs⟩ := owner_go hc hr ht hh
    exact ⟨t, pc, s', es, ht, .inr rfl, hs⟩
  | none =>
    have hz : sumOn PC.toWake s.ths = 0 := by
      apply Decidable.byContradiction
      intro hne
      obtain ⟨u, x, hu, hx⟩ := sumOn_pos (Nat.pos_of_ne_zero hne)
      have hxh : x.holds = true := by cases x <;> first | rfl | (simp [PC.toWake] at hx)
      have := hl.own u x hu hxh
      rw [hown] at this; cases this
    have hg := hg.sum
    obtain ⟨q, x, hx, hnx⟩ := sumOn_pos (f := Node.n) (l := s.nodes) (by omega)
    have htok := hc.tok hn q x hx
    have hle := (hc.ok q x hx).le
    -- a thread counted in the node
    have hreg : 0 < s.ths.countP (PC.reg q) := by
      rw [hc.reg q, show wOf s.nodes q = x.w by simp [wOf, hx]]; omega
    have enter : ∀ (t : Nat) (pc pc' : PC), s.ths[t]? = some pc → Enter pc pc' → ∃ s' es, step s (t, .go) = some (s', es) := by
      intro t pc pc' ht he
      cases he <;> exact ⟨_, _, by simp only [step, ht, hown, if_true]; rfl⟩
    by_cases hf : 0 < s.ths.countP (PC.flight q)
    · obtain ⟨t, pc, ht, hp⟩ := exists_of_countP_pos hf
      cases pc <;> first | cases hp; done | skip
      case gotTok k p =>
        obtain ⟨s', es, hs⟩ := enter t _ _ ht (.tok k p)
        exact ⟨t, _, s', es, ht, .inl rfl, hs⟩
      case inTok k p =>
        obtain ⟨s', es, hs⟩ := owner_go hc hr ht rfl
        exact ⟨t, _, s', es, ht, .inl rfl, hs⟩
    · obtain ⟨t, pc, ht, hp⟩ := exists_of_countP_pos hreg
      have hpos : 0 < x.tok := by omega
      cases pc <;> first | cases hp; done | skip
      case wExit k p =>
        obtain ⟨s', es, hs⟩ := owner_go hc hr ht rfl
        exact ⟨t, _, s', es, ht, .inl rfl, hs⟩
      case wUnlock k p => exact ⟨t, _, _, _, ht, .inl rfl, by simp only [step, ht]; rfl⟩
      case blocked k p =>
        have hpq : p = q := by simpa [PC.reg] using hp
        subst hpq
        exact ⟨t, _, _, _, ht, .inl rfl, by simp only [step, ht, hx, if_pos hpos]; rfl⟩
      case gotTok k p =>
        obtain ⟨s', es, hs⟩ := enter t _ _ ht (.tok k p)
        exact ⟨t, _, s', es, ht, .inl rfl, hs⟩
      case inTok k p =>
        obtain ⟨s', es, hs⟩ := owner_go hc hr ht rfl
        exact ⟨t, _, s', es, ht, .inl rfl, hs⟩
      case expired p =>
        obtain ⟨s', es, hs⟩ := enter t _ _ ht (.expired p)
        exact ⟨t, _, s', es, ht, .inl rfl, hs⟩
      case inExpired p =>
        obtain ⟨s', es, hs⟩ := owner_go hc hr ht rfl
        exact ⟨t, _, s', es, ht, .inl rfl, hs⟩
      case failed p =>
        obtain ⟨s', es, hs⟩ := enter t _ _ ht (.failed p)
        exact ⟨t, _, s', es, ht, .inl rfl, hs⟩
      case inFailed p =>
        obtain ⟨s', es, hs⟩ := owner_go hc hr ht rfl
        exact ⟨t, _, s', es, ht, .inl rfl, hs⟩

/-- Some thread can take a step of its own if a notification is outstanding. -/
theorem outstanding_go {n : Nat} {tr : List Ev} {s : St} (h : Exec step (init n) tr s) (hn : n ≤ 1073741824)
    (ho : allConsumed tr < allGranted tr) :
    ∃ (t : Nat) (pc : PC) (s' : St) (es : List Ev), s.ths[t]? = some pc ∧ (pc.waiting = true ∨ s.owner = some t) ∧
      step s (t, .go) = some (s', es) :=
  outstanding_of (counts_exec h).1 (counts_exec h).2 (ring_exec h) (grants_exec h) (by rw [threads_exec h]; exact hn) ho

end Verif.WinCv
