import Verif.Spec.WinCvFail
import Verif.Proof.WinCondVarGrant

/-! # The bookkeeping of the Windows condition variable when locks fail -/

namespace Verif.WinCvFail

open Verif.WinCv (PC Locks Counts Step sumOn Node)

/-- The state with further threads, which are stuck. -/
def plus (s : WinCv.St) (g : List PC) : WinCv.St := { s with ths := s.ths ++ g }

theorem get_plus {l g : List PC} {t : Nat} {pc : PC} (h : l[t]? = some pc) : (l ++ g)[t]? = some pc := by
  rw [List.getElem?_append_left (List.getElem?_eq_some_iff.mp h).1]; exact h

theorem set_plus {l g : List PC} {t : Nat} {pc pc' : PC} (h : l[t]? = some pc) : (l ++ g).set t pc' = l.set t pc' ++ g :=
  List.set_append_left _ _ (List.getElem?_eq_some_iff.mp h).1

theorem goto_plus {s : WinCv.St} {t : Nat} {pc pc' : PC} {es : List WinCv.Ev} (g : List PC) (h : WinCv.Goto s t pc pc' es) :
    WinCv.Goto (plus s g) t pc pc' es := by
  cases h <;> first
    | exact .callAbs ‹_› | exact .call _ ‹_› | exact .timer | exact .timerFail | exact .search (s := plus s g) _ ‹_›
    | exact .initFail (s := plus s g) _ ‹_› | exact .newFail _ _ | exact .timeout _ _ | exact .waitFail _ _ | exact .notify _
    | exact .load _ | exact .loadZero _

theorem exit_plus {s : WinCv.St} {t : Nat} {pc pc' : PC} {es : List WinCv.Ev} (g : List PC) (h : WinCv.Exit s t pc pc' es) :
    WinCv.Exit (plus s g) t pc pc' es := by
  cases h <;> first | exact .abort | exact .wait _ _ | exact .notify | exact .stale (s := plus s g) _ _ _ ‹_› ‹_›

/-- The stuck threads do not matter for the others. -/
theorem step_plus {s s' : WinCv.St} {t : Nat} {es : List WinCv.Ev} (g : List PC) (h : Step s t s' es) :
    Step (plus s g) t (plus s' g) es := by
  cases h with
  | userLock h hu => exact .userLock (get_plus h) hu
  | userUnlock h hu => exact .userUnlock (get_plus h) hu
  | goto h hg =>
    have := Step.goto (s := plus s g) (get_plus h) (goto_plus g hg)
    rwa [show (plus s g).ths = s.ths ++ g from rfl, set_plus h] at this
  | enter h hg ho =>
    have := Step.enter (s := plus s g) (get_plus h) hg ho
    rwa [show (plus s g).ths = s.ths ++ g from rfl, set_plus h] at this
  | exit h hg =>
    have := Step.exit (s := plus s g) (get_plus h) (exit_plus g hg)
    rwa [show (plus s g).ths = s.ths ++ g from rfl, set_plus h] at this
  | first h hn =>
    have := Step.first (s := plus s g) (get_plus h) hn
    rwa [show (plus s g).ths = s.ths ++ g from rfl, set_plus h] at this
  | join h hx hn hw =>
    have := Step.join (s := plus s g) (get_plus h) hx hn hw
    rwa [show (plus s g).ths = s.ths ++ g from rfl, set_plus h] at this
  | advance h hx hn he => exact .advance (s := plus s g) (get_plus h) hx hn he
  | around h hx hn he =>
    have := Step.around (s := plus s g) (get_plus h) hx hn he
    rwa [show (plus s g).ths = s.ths ++ g from rfl, set_plus h] at this
  | create h hx =>
    have := Step.create (s := plus s g) (get_plus h) hx
    rwa [show (plus s g).ths = s.ths ++ g from rfl, set_plus h] at this
  | unlock h =>
    have := Step.unlock (s := plus s g) (get_plus h)
    rwa [show (plus s g).ths = s.ths ++ g from rfl, set_plus h] at this
  | token h hx ht =>
    have := Step.token (s := plus s g) (get_plus h) hx ht
    rwa [show (plus s g).ths = s.ths ++ g from rfl, set_plus h] at this
  | leave h hl hx hn =>
    have := Step.leave (s := plus s g) (get_plus h) hl hx hn
    rwa [show (plus s g).ths = s.ths ++ g from rfl, set_plus h] at this
  | leave0 h hl hx hn =>
    have := Step.leave0 (s := plus s g) (get_plus h) hl hx hn
    rwa [show (plus s g).ths = s.ths ++ g from rfl, set_plus h] at this
  | relock h hu =>
    have := Step.relock (s := plus s g) (get_plus h) hu
    rwa [show (plus s g).ths = s.ths ++ g from rfl, set_plus h] at this
  | decide0 h h0 =>
    have := Step.decide0 (s := plus s g) (get_plus h) h0
    rwa [show (plus s g).ths = s.ths ++ g from rfl, set_plus h] at this
  | decide h h0 hc =>
    have := Step.decide (s := plus s g) (get_plus h) h0 hc
    rwa [show (plus s g).ths = s.ths ++ g from rfl, set_plus h] at this
  | wakeLast h hx hm hc =>
    have := Step.wakeLast (s := plus s g) (get_plus h) hx hm hc
    rwa [show (plus s g).ths = s.ths ++ g from rfl, set_plus h] at this
  | wakeNext h hx hm hc =>
    have := Step.wakeNext (s := plus s g) (get_plus h) hx hm hc
    rwa [show (plus s g).ths = s.ths ++ g from rfl, set_plus h] at this

/-- Places where a thread may be stuck. -/
def stuck : PC → Bool
  | .gotTok _ _ | .expired _ | .failed _ => true
  | _ => false

theorem get_append {l g : List PC} {t : Nat} {pc : PC} (h : (l ++ g)[t]? = some pc) :
    (l[t]? = some pc) ∨ (l.length ≤ t ∧ pc ∈ g) := by
  by_cases ht : t < l.length
  · rw [List.getElem?_append_left ht] at h; exact .inl h
  · rw [List.getElem?_append_right (by omega)] at h
    exact .inr ⟨by omega, List.mem_of_getElem? h⟩

theorem locks_plus {s : WinCv.St} (hl : Locks s) (hu : ∀ u, s.user = some u → u < s.ths.length) {g : List PC}
    (hg : ∀ pc ∈ g, stuck pc = true) : Locks (plus s g) where
  own t pc h hp := by
    rcases get_append h with h | ⟨_, h⟩
    · exact hl.own t pc h hp
    · have := hg pc h; cases pc <;> first | (cases hp; done) | (cases this; done)
  owned t h := by
    obtain ⟨pc, h1, h2⟩ := hl.owned t h
    exact ⟨pc, get_plus h1, h2⟩
  early t pc h hp := by
    rcases get_append h with h | ⟨_, h⟩
    · exact hl.early t pc h hp
    · have := hg pc h; cases pc <;> first | (cases hp; done) | (cases this; done)
  late t pc h hp := by
    rcases get_append h with h | ⟨hle, _⟩
    · exact hl.late t pc h hp
    · intro he
      have := hu t he
      omega

/-- The thread goes on, but what it leaves behind looks like a thread that is stuck. -/
theorem counts_abandon {s : WinCv.St} {g : List PC} (hc : Counts (plus s g)) {t : Nat} {pc : PC} (h : s.ths[t]? = some pc)
    (hs : stuck pc = true) : Counts (plus { s with ths := s.ths.set t (.relock .threw) } (g ++ [pc])) where
  reg q := by
    have h1 := hc.reg q
    have h2 := countP_set (p := PC.reg q) (b := .relock .threw) h
    rw [show PC.reg q (.relock .threw) = false from rfl, b2n_false] at h2
    simp only [plus, List.countP_append, List.countP_singleton] at h1 ⊢
    rw [← h1]
    unfold b2n at h2
    omega
  ok := hc.ok
  tok hle q x hx := by
    have h1 := hc.tok (by simp only [plus, List.length_append, List.length_set, List.length_cons] at hle ⊢; omega) q x hx
    have h2 := countP_set (p := PC.flight q) (b := .relock .threw) h
    rw [show PC.flight q (.relock .threw) = false from rfl, b2n_false] at h2
    simp only [plus, List.countP_append, List.countP_singleton] at h1 ⊢
    unfold b2n at h2
    omega
  total := by
    have h1 := hc.total
    have h2 := WinCv.sumOn_set (f := PC.toWake) (b := .relock .threw) h
    have h3 : PC.toWake pc = 0 := by cases pc <;> first | rfl | cases hs
    rw [h3, show PC.toWake (.relock .threw) = 0 from rfl] at h2
    simp only [plus, WinCv.sumOn_append, WinCv.sumOn, h3] at h1 ⊢
    omega
  waking u c hu := by
    rcases get_append hu with hu | ⟨_, hu⟩
    · rcases get_set_cases hu with ⟨_, hc'⟩ | ⟨_, hu⟩
      · cases hc'
      · exact hc.waking u c (get_plus hu)
    · rcases List.mem_append.mp hu with hu | hu
      · obtain ⟨i, hi, he⟩ := List.getElem_of_mem hu
        refine hc.waking (s.ths.length + i) c ?_
        show (s.ths ++ g)[s.ths.length + i]? = _
        rw [List.getElem?_append_right (by omega), Nat.add_sub_cancel_left, List.getElem?_eq_getElem hi, he]
      · cases List.mem_singleton.mp hu
        cases hs

/-- Notification units are granted, then in the nodes or still to be issued, then consumed. -/
def Sum (tr : List WinCv.Ev) (s : WinCv.St) : Prop :=
  WinCv.allConsumed tr + sumOn Node.n s.nodes + sumOn PC.toWake s.ths = WinCv.allGranted tr

theorem sum_move {tr es : List WinCv.Ev} {s s' : WinCv.St} (hi : Sum tr s) {t : Nat} {pc pc' : PC} (h : s.ths[t]? = some pc)
    (hths : s'.ths = s.ths.set t pc')
    (hn : sumOn Node.n s'.nodes + WinCv.allConsumed es + pc'.toWake = sumOn Node.n s.nodes + WinCv.allGranted es + pc.toWake) :
    Sum (tr ++ es) s' := by
  have h1 := WinCv.sumOn_set (f := PC.toWake) (b := pc') h
  unfold Sum at *
  rw [WinCv.allGranted_append, WinCv.allConsumed_append, hths]
  omega

theorem sum_step {tr es : List WinCv.Ev} {s s' : WinCv.St} {t : Nat} (hi : Sum tr s) (h : Step s t s' es) :
    Sum (tr ++ es) s' := by
  cases h with
  | userLock h hu => exact (List.append_nil tr).symm ▸ hi
  | userUnlock h hu => exact (List.append_nil tr).symm ▸ hi
  | goto h hg => exact sum_move hi h rfl (by cases hg <;> rfl)
  | enter h hg ho => exact sum_move hi h rfl (by cases hg <;> rfl)
  | exit h hg => exact sum_move hi h rfl (by cases hg <;> rfl)
  | first h hn => exact sum_move hi h rfl (by rw [hn]; rfl)
  | @join k e x h hx hn hw =>
    have h1 := WinCv.sumOn_set_same (f := Node.n) (b := { x with w := x.w + 1 }) hx rfl
    exact sum_move hi h rfl (by rw [h1]; rfl)
  | advance h hx hn he => exact (List.append_nil tr).symm ▸ hi
  | around h hx hn he => exact sum_move hi h rfl rfl
  | @create k e x h hx =>
    have h1 := WinCv.sumOn_set_same (f := Node.n) (b := { x with next := s.nodes.length }) hx rfl
    refine sum_move hi h rfl ?_
    show sumOn Node.n (_ ++ _) + 0 + 0 = _
    rw [WinCv.sumOn_append, h1]
    rfl
  | unlock h => exact sum_move hi h rfl rfl
  | @token k q x h hx ht =>
    have h1 := WinCv.sumOn_set_same (f := Node.n) (b := { x with tok := x.tok - 1 }) hx rfl
    exact sum_move hi h rfl (by rw [h1]; rfl)
  | @leave pc q r x h hl hx hn =>
    have h1 := WinCv.sumOn_set (f := Node.n) (b := x.leave) hx
    refine sum_move hi h rfl ?_
    have h2 : PC.toWake pc = 0 := by cases hl <;> rfl
    rw [h2]
    show _ + 1 + 0 = _ + 0 + 0
    simp only [WinCv.Node.leave] at h1 ⊢
    omega
  | @leave0 pc q r x h hl hx hn =>
    have h1 := WinCv.sumOn_set (f := Node.n) (b := x.leave) hx
    refine sum_move hi h rfl ?_
    have h2 : PC.toWake pc = 0 := by cases hl <;> rfl
    rw [h2]
    show _ + 0 + 0 = _ + 0 + 0
    simp only [WinCv.Node.leave] at h1 ⊢
    omega
  | relock h hu => exact sum_move hi h rfl rfl
  | decide0 h h0 => exact sum_move hi h rfl rfl
  | @decide all c h h0 _ => exact sum_move hi h rfl (by show sumOn Node.n s.nodes + 0 + c = sumOn Node.n s.nodes + (c + 0) + 0; omega)
  | @wakeLast c x m h hx hm hcc =>
    have h1 := WinCv.sumOn_set (f := Node.n) (b := x.wake m s.calls) hx
    refine sum_move hi h rfl ?_
    show _ + 0 + 0 = _ + 0 + c
    simp only [WinCv.Node.wake] at h1 ⊢
    omega
  | @wakeNext c x m h hx hm hcc =>
    have h1 := WinCv.sumOn_set (f := Node.n) (b := x.wake m s.calls) hx
    refine sum_move hi h rfl ?_
    show _ + 0 + (c - m) = _ + 0 + c
    simp only [WinCv.Node.wake] at h1 ⊢
    omega

/-- The user's lock is owned by threads only. -/
theorem user_step {s s' : WinCv.St} {t : Nat} {es : List WinCv.Ev} (hu : ∀ u, s.user = some u → u < s.ths.length) (h : Step s t s' es) :
    ∀ u, s'.user = some u → u < s'.ths.length := by
  have hlen : ∀ {pc : PC}, s.ths[t]? = some pc → ∀ u, some t = some u → u < s.ths.length := by
    intro pc hp u he; cases he; exact (List.getElem?_eq_some_iff.mp hp).1
  cases h with
  | userLock h _ => exact hlen h
  | userUnlock h _ => intro u he; cases he
  | relock h _ => simpa using hlen h
  | unlock h => intro u he; cases he
  | advance h hx hn he => exact hu
  | _ => simpa using hu

/-- The invariant. -/
structure Inv (tr : List Ev) (s : St) : Prop where
  locks : Locks s.cv
  user : ∀ u, s.cv.user = some u → u < s.cv.ths.length
  count : ∃ g : List PC, g.length = abandoned tr ∧ (∀ pc ∈ g, stuck pc = true) ∧ Counts (plus s.cv g) ∧ Sum (plain tr) (plus s.cv g)

theorem inv_init (n : Nat) : Inv [] (init n) where
  locks := WinCv.locks_init n
  user u h := by cases h
  count := by
    refine ⟨[], rfl, by simp, ?_, ?_⟩
    · have := WinCv.counts_init n
      simpa [plus, init] using this
    · have := (WinCv.grants_init n).sum
      simpa [plus, init, Sum, plain] using this

theorem plain_append (tr es : List Ev) : plain (tr ++ es) = plain tr ++ plain es := List.filterMap_append ..

theorem abandoned_append (tr es : List Ev) : abandoned (tr ++ es) = abandoned tr + abandoned es := List.countP_append

theorem plain_ev (es : List WinCv.Ev) : plain (es.map .ev) = es := by
  unfold plain
  rw [List.filterMap_map]
  exact List.filterMap_some

theorem abandoned_ev (es : List WinCv.Ev) : abandoned (es.map .ev) = 0 := by
  unfold abandoned
  rw [List.countP_eq_zero]
  intro e he
  obtain ⟨x, _, rfl⟩ := List.mem_map.mp he
  simp [Ev.isAbandoned]

/-- A thread moves without changing anything else. -/
theorem inv_move {tr es : List Ev} {s : St} (hi : Inv tr s) {t : Nat} {pc pc' : PC} (h : s.cv.ths[t]? = some pc)
    (hh : pc'.holds = pc.holds) (he : pc'.early = true → pc.early = true) (hl : pc'.late = true → pc.late = true)
    (hreg : ∀ q, pc'.reg q = pc.reg q) (hfl : ∀ q, pc'.flight q = pc.flight q) (hwk : pc'.toWake = pc.toWake)
    (hw : ∀ c, pc' ≠ .waking c) (hp : WinCv.allGranted (plain es) = 0 ∧ WinCv.allConsumed (plain es) = 0) (ha : abandoned es = 0) :
    Inv (tr ++ es) ⟨{ s.cv with ths := s.cv.ths.set t pc' }, false⟩ where
  locks := by
    obtain ⟨a, b⟩ := WinCv.own_keep hi.locks h (pc' := pc') hh
    obtain ⟨c, d⟩ := WinCv.user_keep hi.locks h (pc' := pc') (fun hx => .inl (he hx)) hl
    exact ⟨a, b, c, d⟩
  user := by simpa using hi.user
  count := by
    obtain ⟨g, hg, hs, hc, hsum⟩ := hi.count
    refine ⟨g, by rw [abandoned_append, ha]; exact hg, hs, ?_, ?_⟩
    · exact WinCv.counts_move hc (get_plus h) (set_plus h).symm rfl rfl hreg hfl hwk (fun c hc => absurd hc (hw c))
    · rw [plain_append]
      refine sum_move hsum (get_plus h) (set_plus h).symm ?_
      rw [hp.1, hp.2, hwk]
      rfl

theorem inv_abandon {tr : List Ev} {s : St} (hi : Inv tr s) {t : Nat} {pc : PC} (h : s.cv.ths[t]? = some pc) (hs : stuck pc = true) :
    Inv (tr ++ [.abandoned t]) ⟨{ s.cv with ths := s.cv.ths.set t (.relock .threw) }, false⟩ where
  locks := by
    obtain ⟨a, b⟩ := WinCv.own_keep hi.locks h (pc' := .relock .threw) (by cases pc <;> first | rfl | cases hs)
    obtain ⟨c, d⟩ := WinCv.user_keep hi.locks h (pc' := .relock .threw) (fun hx => by cases hx)
      (fun _ => by cases pc <;> first | rfl | cases hs)
    exact ⟨a, b, c, d⟩
  user := by simpa using hi.user
  count := by
    obtain ⟨g, hg, hst, hc, hsum⟩ := hi.count
    refine ⟨g ++ [pc], by rw [List.length_append, hg, abandoned_append]; rfl, ?_, counts_abandon hc h hs, ?_⟩
    · intro x hx
      rcases List.mem_append.mp hx with hx | hx
      · exact hst x hx
      · rw [List.mem_singleton.mp hx]; exact hs
    · have h2 := WinCv.sumOn_set (f := PC.toWake) (b := .relock .threw) h
      have h3 : PC.toWake pc = 0 := by cases pc <;> first | rfl | cases hs
      rw [plain_append]
      rw [h3, show PC.toWake (.relock .threw) = 0 from rfl] at h2
      simp only [Sum, plus, WinCv.sumOn_append, WinCv.sumOn, h3, plain, Ev.plain?, List.filterMap_cons, List.filterMap_nil,
        List.append_nil] at hsum ⊢
      omega

theorem inv_dead {tr : List Ev} {s : St} (hi : Inv tr s) (t : Nat) : Inv (tr ++ [.terminated t]) ⟨s.cv, true⟩ where
  locks := hi.locks
  user := hi.user
  count := by
    obtain ⟨g, hg, hst, hc, hsum⟩ := hi.count
    refine ⟨g, by rw [abandoned_append]; exact hg, hst, hc, ?_⟩
    rw [plain_append]
    exact (List.append_nil (plain tr)).symm ▸ hsum

theorem inv_step {tr es : List Ev} {s s' : St} {t : Nat} {a : Act} (hi : Inv tr s) (h : step s (t, a) = some (s', es)) :
    Inv (tr ++ es) s' := by
  unfold step at h
  simp only at h
  split at h
  · cases h
  cases a with
  | base a =>
    simp only [Option.map_eq_some_iff] at h
    obtain ⟨⟨cv', es'⟩, hb, he⟩ := h
    cases he
    have hst := WinCv.step_sound hb
    refine ⟨WinCv.locks_step hi.locks hst, user_step hi.user hst, ?_⟩
    obtain ⟨g, hg, hs, hc, hsum⟩ := hi.count
    have hp := step_plus g hst
    refine ⟨g, by rw [abandoned_append, abandoned_ev]; exact hg, hs, WinCv.counts_step (locks_plus hi.locks hi.user hs) hc hp, ?_⟩
    rw [plain_append, plain_ev]
    exact sum_step hsum hp
  | lockFails =>
    simp only at h
    split at h
    · next k hp =>
      cases h
      exact inv_move hi hp rfl nofun nofun (fun _ => rfl) (fun _ => rfl) rfl nofun ⟨rfl, rfl⟩ rfl
    · next hp => cases h; exact inv_abandon hi hp rfl
    · next hp => cases h; exact inv_abandon hi hp rfl
    · next hp => cases h; exact inv_abandon hi hp rfl
    · next hp => cases h; exact inv_dead hi t
    · next hp => cases h; exact inv_dead hi t
    · next r _ hp =>
      cases h
      exact inv_move hi hp rfl nofun nofun (fun _ => rfl) (fun _ => rfl) rfl nofun ⟨rfl, rfl⟩ rfl
    · cases h

theorem inv_exec {n : Nat} {tr : List Ev} {s : St} (h : Exec step (init n) tr s) : Inv tr s :=
  h.invariant Inv (inv_init n) (fun _ _ l _ _ hi hs => by obtain ⟨t, a⟩ := l; exact inv_step hi hs)

end Verif.WinCvFail
