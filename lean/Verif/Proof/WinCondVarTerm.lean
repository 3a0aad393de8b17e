import Verif.Proof.WinCondVarCall

/-! # Runs without new calls are finite -/

namespace Verif.WinCv

/-- A step of a thread that is inside one of the functions. -/
def Inner (s s' : St) : Prop := ∃ t a es, (a = Act.go ∨ a = .timeout ∨ a = .fail) ∧ step s (t, a) = some (s', es)

theorem inner_step {s s' : St} (h : Inner s s') : ∃ t es, Step s t s' es ∧ s.ths[t]? ≠ some .idle := by
  obtain ⟨t, a, es, ha, hs⟩ := h
  refine ⟨t, es, step_sound hs, ?_⟩
  intro hidle
  rcases ha with rfl | rfl | rfl <;> simp [step, hidle] at hs

/-- The search of `initiate_wait` at node `cur` returns to `e` after `k` iterations. -/
inductive SearchIn (l : List (Nat × Nat)) (e : Nat) : Nat → Nat → Prop
  | last {cur f} (hx : l[cur]? = some (f, e)) : SearchIn l e cur 1
  | next {cur f nx k} (hx : l[cur]? = some (f, nx)) (hne : nx ≠ e) (h : SearchIn l e nx k) : SearchIn l e cur (k + 1)

theorem searchIn_exists {ns : List Node} {e : Nat} :
    ∀ {i : Nat}, Path ns i e → ∀ (cur : Nat) (x : Node), ns[cur]? = some x → x.next = i → ∃ k, SearchIn (core ns) e cur k := by
  intro i h
  induction h with
  | refl e =>
    intro cur x hx hn
    exact ⟨1, .last (f := x.w - x.n) (by rw [core_get hx, hn])⟩
  | @next i e y hy _ ih =>
    intro cur x hx hn
    by_cases hie : i = e
    · exact ⟨1, .last (f := x.w - x.n) (by rw [core_get hx, hn, hie])⟩
    · obtain ⟨k, hk⟩ := ih i y hy rfl
      exact ⟨k + 1, .next (f := x.w - x.n) (nx := i) (by rw [core_get hx, hn]) hie hk⟩

def PC.front : PC → Nat
  | .wTimer => 6 | .wEnter _ => 5 | .wInit _ => 4 | .wLoop _ _ => 3 | .wNew _ _ => 2 | .wAbort => 1
  | .nLoad _ => 5 | .nEnter _ => 4 | .nCheck _ => 3 | .waking _ => 2 | .nExit => 1
  | _ => 0

def PC.back : PC → Nat
  | .wExit _ _ => 9 | .wUnlock _ _ => 8 | .blocked _ _ => 4 | .gotTok _ _ => 6 | .inTok _ _ => 5 | .expired _ => 3
  | .inExpired _ => 2 | .failed _ => 3 | .inFailed _ => 2 | .relock _ => 1
  | _ => 0

def front (s : St) : Nat := sumOn PC.front s.ths
def back (s : St) : Nat := sumOn PC.back s.ths + 3 * sumOn Node.tok s.nodes

/-- The loop of the owner of the internal mutex, if it is in one, ends within `k` iterations. -/
structure Loops (s : St) (k : Nat) : Prop where
  wake : ∀ (t c : Nat), s.ths[t]? = some (.waking c) → ∃ j, j ≤ k ∧ WakeIn (core s.nodes) s.notify c j
  search : ∀ (t : Nat) (kd : Kind) (e : Nat), s.ths[t]? = some (.wLoop kd e) → ∃ j, j ≤ k ∧ SearchIn (core s.nodes) e s.waitSt j

structure Good (s : St) : Prop where
  locks : Locks s
  counts : Counts s
  ring : Ring s

theorem good_exec {n : Nat} {tr : List Ev} {s : St} (h : Exec step (init n) tr s) : Good s :=
  ⟨(counts_exec h).1, (counts_exec h).2, ring_exec h⟩

theorem good_step {s s' : St} {t : Nat} {es : List Ev} (h : Good s) (hs : Step s t s' es) : Good s' :=
  ⟨locks_step h.locks hs, counts_step h.locks h.counts hs, ring_step h.ring hs⟩

theorem loops_exists {s : St} (h : Good s) : ∃ k, Loops s k := by
  obtain ⟨hl, hc, hr⟩ := h
  cases hown : s.owner with
  | none =>
    refine ⟨0, ?_, ?_⟩
    · intro t c ht
      have := hl.own t _ ht rfl
      rw [hown] at this; cases this
    · intro t kd e ht
      have := hl.own t _ ht rfl
      rw [hown] at this; cases this
  | some t =>
    obtain ⟨pc, ht, hh⟩ := hl.owned t hown
    have only : ∀ (u : Nat) (x : PC), s.ths[u]? = some x → x.holds = true → x = pc := fun u x hu hx =>
      (sole hl hu hx ht hh).2
    by_cases hwk : ∃ c, pc = .waking c
    · obtain ⟨c, rfl⟩ := hwk
      have h1 := hc.waking t c ht
      have h2 := sumOn_le (f := PC.toWake) ht
      simp only [PC.toWake] at h2
      have h3 := hc.total
      have hne : s.nodes ≠ [] := by
        intro h0; rw [h0] at h3; simp only [sumOn] at h3; omega
      obtain ⟨k, hk⟩ := wakeIn_exists c s.nodes s.notify hr.path hr.next (hr.ptr hne).1 h1 (by omega)
      refine ⟨k, ?_, ?_⟩
      · intro u c' hu
        cases only u _ hu rfl
        exact ⟨k, Nat.le_refl _, hk⟩
      · intro u kd e hu; cases only u _ hu rfl
    · by_cases hsr : ∃ kd e, pc = .wLoop kd e
      · obtain ⟨kd, e, rfl⟩ := hsr
        have he := hr.loop t kd e ht
        have hne : s.nodes ≠ [] := by intro h0; rw [h0] at he; simp at he
        have hx : s.nodes[s.waitSt]? = some _ := List.getElem?_eq_getElem (hr.ptr hne).2
        obtain ⟨k, hk⟩ := searchIn_exists (hr.path _ e (hr.next _ _ hx) he) s.waitSt _ hx rfl
        refine ⟨k, ?_, ?_⟩
        · intro u c hu; cases only u _ hu rfl
        · intro u kd' e' hu
          cases only u _ hu rfl
          exact ⟨k, Nat.le_refl _, hk⟩
      · refine ⟨0, ?_, ?_⟩
        · intro u c hu; exact absurd ⟨c, (only u _ hu rfl).symm⟩ hwk
        · intro u kd e hu; exact absurd ⟨kd, e, (only u _ hu rfl).symm⟩ hsr

theorem loops_keep {s s' : St} {t k : Nat} {pc' : PC} (hi : Loops s k) (hths : s'.ths = s.ths.set t pc')
    (hcore : core s'.nodes = core s.nodes) (hnot : s'.notify = s.notify) (hws : s'.waitSt = s.waitSt)
    (h1 : ∀ c, pc' ≠ .waking c) (h2 : ∀ kd e, pc' ≠ .wLoop kd e) : Loops s' k := by
  refine ⟨?_, ?_⟩
  · intro u c hu
    rw [hths] at hu
    rw [hcore, hnot]
    rcases get_set_cases hu with ⟨_, hc⟩ | ⟨_, hu⟩
    · exact absurd hc.symm (h1 c)
    · exact hi.wake u c hu
  · intro u kd e hu
    rw [hths] at hu
    rw [hcore, hws]
    rcases get_set_cases hu with ⟨_, hc⟩ | ⟨_, hu⟩
    · exact absurd hc.symm (h2 kd e)
    · exact hi.search u kd e hu

/-- What a step does to the three components of the order. -/
def Smaller (s s' : St) : Prop :=
  front s' < front s ∨
  (front s' = front s ∧ ∀ k, Loops s k → ∃ k', k' < k ∧ Loops s' k') ∨
  (front s' = front s ∧ (∀ k, Loops s k → Loops s' k) ∧ back s' < back s)

theorem smaller_front {s s' : St} {t : Nat} {pc pc' : PC} (h : s.ths[t]? = some pc) (hths : s'.ths = s.ths.set t pc')
    (hlt : pc'.front < pc.front) : Smaller s s' := by
  left
  have := sumOn_set (f := PC.front) (b := pc') h
  unfold front
  rw [hths]; omega

theorem smaller_back {s s' : St} {t : Nat} {pc pc' : PC} (h : s.ths[t]? = some pc) (hths : s'.ths = s.ths.set t pc')
    (hf : pc'.front = pc.front) (hcore : core s'.nodes = core s.nodes) (hnot : s'.notify = s.notify)
    (hws : s'.waitSt = s.waitSt) (h1 : ∀ c, pc' ≠ .waking c) (h2 : ∀ kd e, pc' ≠ .wLoop kd e)
    (hb : pc'.back + 3 * sumOn Node.tok s'.nodes < pc.back + 3 * sumOn Node.tok s.nodes) : Smaller s s' := by
  right; right
  refine ⟨?_, fun k hk => loops_keep hk hths hcore hnot hws h1 h2, ?_⟩
  · have := sumOn_set (f := PC.front) (b := pc') h
    unfold front
    rw [hths]; omega
  · have := sumOn_set (f := PC.back) (b := pc') h
    unfold back
    rw [hths]; omega

/-- Leaving a wait while owning the mutex: no thread is in a loop. -/
theorem smaller_leave {s s' : St} {t q : Nat} {pc : PC} {r : Result} {x : Node} (hl : Locks s) (h : s.ths[t]? = some pc)
    (hh : pc.holds = true) (hw : ∀ c, pc ≠ .waking c) (hlp : ∀ kd e, pc ≠ .wLoop kd e)
    (hths : s'.ths = s.ths.set t (.relock r)) (hx : s.nodes[q]? = some x) (hnodes : s'.nodes = s.nodes.set q x.leave)
    (hf : pc.front = 0) (hb : 1 < pc.back) : Smaller s s' := by
  right; right
  refine ⟨?_, ?_, ?_⟩
  · have := sumOn_set (f := PC.front) (b := .relock r) h
    rw [show PC.front (.relock r) = 0 from rfl] at this
    unfold front
    rw [hths]; omega
  · intro k hk
    refine ⟨?_, ?_⟩
    · intro u c hu
      rw [hths] at hu
      rcases get_set_cases hu with ⟨_, hc⟩ | ⟨_, hu⟩
      · cases hc
      · exact absurd (sole hl h hh hu rfl).2 (hw c)
    · intro u kd e hu
      rw [hths] at hu
      rcases get_set_cases hu with ⟨_, hc⟩ | ⟨_, hu⟩
      · cases hc
      · exact absurd (sole hl h hh hu rfl).2 (hlp kd e)
  · have h1 := sumOn_set (f := PC.back) (b := .relock r) h
    rw [show PC.back (.relock r) = 1 from rfl] at h1
    have h2 : sumOn Node.tok (s.nodes.set q x.leave) = sumOn Node.tok s.nodes := sumOn_set_same hx rfl
    unfold back
    rw [hths, hnodes, h2]; omega

theorem step_smaller {s s' : St} {t : Nat} {es : List Ev} (hl : Locks s) (h : Step s t s' es)
    (hidle : s.ths[t]? ≠ some .idle) : Smaller s s' := by
  cases h with
  | userLock h _ => exact absurd h hidle
  | userUnlock h _ => exact absurd h hidle
  | goto h hg =>
    cases hg with
    | callAbs _ => exact absurd h hidle
    | call _ _ => exact absurd h hidle
    | notify _ => exact absurd h hidle
    | timeout k q =>
      exact smaller_back h rfl rfl rfl rfl rfl (by intro c hc; cases hc) (by intro a b hc; cases hc)
        (by simp only [PC.back]; omega)
    | waitFail k q =>
      exact smaller_back h rfl rfl rfl rfl rfl (by intro c hc; cases hc) (by intro a b hc; cases hc)
        (by simp only [PC.back]; omega)
    | _ => exact smaller_front h rfl (by simp only [PC.front]; omega)
  | enter h hg _ =>
    cases hg with
    | wait _ => exact smaller_front h rfl (by simp only [PC.front]; omega)
    | notify _ => exact smaller_front h rfl (by simp only [PC.front]; omega)
    | _ =>
      exact smaller_back h rfl rfl rfl rfl rfl (by intro c hc; cases hc) (by intro a b hc; cases hc)
        (by simp only [PC.back]; omega)
  | exit h hg =>
    cases hg with
    | abort => exact smaller_front h rfl (by simp only [PC.front]; omega)
    | notify => exact smaller_front h rfl (by simp only [PC.front]; omega)
    | wait _ _ =>
      exact smaller_back h rfl rfl rfl rfl rfl (by intro c hc; cases hc) (by intro a b hc; cases hc)
        (by simp only [PC.back]; omega)
    | stale _ _ _ _ _ =>
      exact smaller_back h rfl rfl rfl rfl rfl (by intro c hc; cases hc) (by intro a b hc; cases hc)
        (by simp only [PC.back]; omega)
  | first h _ => exact smaller_front h rfl (by simp only [PC.front]; omega)
  | join h _ _ _ => exact smaller_front h rfl (by simp only [PC.front]; omega)
  | @advance k e x h hx hn he =>
    right; left
    refine ⟨rfl, ?_⟩
    intro j hj
    obtain ⟨i, hi, hs⟩ := hj.search t k e h
    cases hs with
    | last hx' => rw [core_get hx] at hx'; cases hx'; exact absurd rfl he
    | @next _ f nx i' hx' hne hs' =>
      rw [core_get hx] at hx'; cases hx'
      refine ⟨j - 1, by omega, ?_, ?_⟩
      · intro u c hu
        have := (sole hl h rfl hu rfl).2
        cases this
      · intro u kd e' hu
        have := (sole hl h rfl hu rfl).2
        cases this
        exact ⟨i', by omega, hs'⟩
  | around h _ _ _ => exact smaller_front h rfl (by simp only [PC.front]; omega)
  | create h _ => exact smaller_front h rfl (by simp only [PC.front]; omega)
  | unlock h =>
    exact smaller_back h rfl rfl rfl rfl rfl (by intro c hc; cases hc) (by intro a b hc; cases hc)
      (by simp only [PC.back]; omega)
  | @token k q x h hx ht =>
    refine smaller_back h (pc' := .gotTok k q) rfl rfl (core_set_same hx rfl rfl rfl) rfl rfl (by intro c hc; cases hc)
      (by intro a b hc; cases hc) ?_
    have := sumOn_set (f := Node.tok) (b := { x with tok := x.tok - 1 }) hx
    simp only [PC.back] at this ⊢
    omega
  | leave h hg hx _ =>
    refine smaller_leave hl h ?_ ?_ ?_ rfl hx rfl ?_ ?_ <;> cases hg <;> first
      | rfl
      | (intro c hc; cases hc; done)
      | (intro a b hc; cases hc; done)
      | (simp only [PC.back]; omega)
  | leave0 h hg hx _ =>
    refine smaller_leave hl h ?_ ?_ ?_ rfl hx rfl ?_ ?_ <;> cases hg <;> first
      | rfl
      | (intro c hc; cases hc; done)
      | (intro a b hc; cases hc; done)
      | (simp only [PC.back]; omega)
  | relock h _ =>
    exact smaller_back h rfl rfl rfl rfl rfl (by intro c hc; cases hc) (by intro a b hc; cases hc)
      (by simp only [PC.back]; omega)
  | decide0 h _ => exact smaller_front h rfl (by simp only [PC.front]; omega)
  | decide h _ _ => exact smaller_front h rfl (by simp only [PC.front]; omega)
  | wakeLast h _ _ _ => exact smaller_front h rfl (by simp only [PC.front]; omega)
  | @wakeNext c x m h hx hm hc =>
    right; left
    have hst : Step s t _ _ := .wakeNext h hx hm hc
    refine ⟨?_, ?_⟩
    · have := sumOn_set (f := PC.front) (b := .waking (c - m)) h
      simp only [PC.front] at this
      unfold front
      simp only
      omega
    · intro j hj
      obtain ⟨i, hi, hw⟩ := hj.wake t c h
      have hpos := wakeIn_pos hw
      rcases (wake_step h hw hst).2 with ⟨_, h2⟩ | ⟨c', h2, h3⟩
      · rw [get_set_self h] at h2; cases h2
      · rw [get_set_self h] at h2
        cases h2
        refine ⟨j - 1, by omega, ?_, ?_⟩
        · intro u c' hu
          rcases get_set_cases hu with ⟨_, hc'⟩ | ⟨hne, hu⟩
          · cases hc'
            exact ⟨i - 1, by omega, h3⟩
          · exact absurd (sole hl h rfl hu rfl).1 hne
        · intro u kd e hu
          rcases get_set_cases hu with ⟨_, hc'⟩ | ⟨hne, hu⟩
          · cases hc'
          · exact absurd (sole hl h rfl hu rfl).1 hne

theorem inner_acc {s : St} (hg : Good s) : Acc (fun b a => Inner a b) s := by
  have key : ∀ (p k q : Nat) (s : St), Good s → front s = p → Loops s k → back s = q → Acc (fun b a => Inner a b) s := by
    intro p
    induction p using Nat.strongRecOn with
    | ind p ihp =>
    intro k
    induction k using Nat.strongRecOn with
    | ind k ihk =>
    intro q
    induction q using Nat.strongRecOn with
    | ind q ihq =>
    intro s hg hp hk hq
    refine ⟨s, ?_⟩
    intro s' hin
    obtain ⟨t, es, hst, hidle⟩ := inner_step hin
    have hg' := good_step hg hst
    rcases step_smaller hg.locks hst hidle with h | ⟨h1, h2⟩ | ⟨h1, h2, h3⟩
    · obtain ⟨k', hk'⟩ := loops_exists hg'
      exact ihp (front s') (by omega) k' (back s') s' hg' rfl hk' rfl
    · obtain ⟨k', hlt, hk'⟩ := h2 k hk
      exact ihk k' hlt (back s') s' hg' (h1.trans hp) hk' rfl
    · exact ihq (back s') (by omega) s' hg' (h1.trans hp) (h2 k hk) rfl
  obtain ⟨k, hk⟩ := loops_exists hg
  exact key (front s) k (back s) s hg rfl hk rfl

end Verif.WinCv
