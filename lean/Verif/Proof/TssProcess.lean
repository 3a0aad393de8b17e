import Verif.Spec.TssProcess
import Verif.Base.Count

namespace Verif.TssProcess

theorem sum_set {α : Type} {f : α → Nat} {l : List α} {i : Nat} {a : α} (h : l[i]? = some a) (b : α) :
    ((l.set i b).map f).sum + f a = (l.map f).sum + f b := by
  induction l generalizing i with
  | nil => simp at h
  | cons x l ih =>
    cases i with
    | zero =>
      simp only [List.getElem?_cons_zero, Option.some.injEq] at h
      subst h
      simp only [List.set_cons_zero, List.map_cons, List.sum_cons]
      omega
    | succ i =>
      simp only [List.getElem?_cons_succ] at h
      simp only [List.set_cons_succ, List.map_cons, List.sum_cons]
      have := ih h
      omega

/-- A context that exists. -/
def Exists (s : St) (i : Nat) : Prop := ∃ c, s.heap[i]? = some (some c)

structure Inv (s : St) : Prop where
  alive : s.dead = false
  slotLive : s.mgr = .live → ∀ (t : Nat) (th : Thread) (i : Nat), s.threads[t]? = some th → th.slot = some i → Exists s i
  slotInj : ∀ (t t' : Nat) (th th' : Thread) (i : Nat), s.threads[t]? = some th → s.threads[t']? = some th' → th.slot = some i → th'.slot = some i → t = t'
  jobCtx : ∀ (t : Nat) (th : Thread) (j : Job), s.threads[t]? = some th → th.job = some j → Exists s j.ctx
  jobThread : ∀ (t : Nat) (th : Thread) (j : Job), s.threads[t]? = some th → th.job = some j → j.proc = false → s.mgr = .live ∧ th.slot = some j.ctx
  jobProc : ∀ (t : Nat) (th : Thread) (j : Job), s.threads[t]? = some th → th.job = some j → j.proc = true → s.mgr = .dying
  one : s.mgr = .dying → ∀ (t t' : Nat) (th th' : Thread), s.threads[t]? = some th → s.threads[t']? = some th' → th.job ≠ none → th'.job ≠ none → t = t'
  gone : s.mgr = .gone → s.keyFreed = true ∧ ∀ i, ¬ Exists s i
  absent : s.mgr = .absent → s.heap = [] ∧ ∀ (t : Nat) (th : Thread), s.threads[t]? = some th → th.slot = none
  size : ∀ (i : Nat) (c : Ctx), s.heap[i]? = some (some c) → c.storage.length ≤ s.table.length
  sizeJob : ∀ (t : Nat) (th : Thread) (j : Job) k l, s.threads[t]? = some th → th.job = some j → j.ph = .tls k l → k + l.length ≤ s.table.length
  key : s.keyFreed = true → s.mgr = .gone
  ntf : ∀ (t : Nat) (th : Thread) (j : Job) l, s.threads[t]? = some th → th.job = some j → j.ph = .notify l →
    j.cb = false ∧ ∀ c, s.heap[j.ctx]? = some (some c) → c.storage = [] ∧ c.notify = []
  tab : s.mgr = .absent → s.table = []

theorem inv_init (n : Nat) : Inv (init n) := by
  have h : ∀ (t : Nat) (th : Thread), (init n).threads[t]? = some th → th = ⟨none, none⟩ := fun t th h => get_replicate (n := n) (i := t) h
  refine ⟨rfl, nofun, ?_, ?_, ?_, ?_, nofun, nofun, fun _ => ⟨rfl, ?_⟩, ?_, ?_, nofun, ?_, fun _ => rfl⟩
  · intro t t' th th' i h1 h2 h3; rw [h _ _ h1] at h3; cases h3
  · intro t th j h1 h2; rw [h _ _ h1] at h2; cases h2
  · intro t th j h1 h2; rw [h _ _ h1] at h2; cases h2
  · intro t th j h1 h2; rw [h _ _ h1] at h2; cases h2
  · intro t th h1; rw [h _ _ h1]
  · intro i c h; simp [init] at h
  · intro t th j k l h1 h2; rw [h _ _ h1] at h2; cases h2
  · intro t th j l h1 h2; rw [h _ _ h1] at h2; cases h2

theorem job_inj {s : St} (hI : Inv s) {t u : Nat} {v w : Thread} {j j' : Job} (ht : s.threads[t]? = some v) (hu : s.threads[u]? = some w)
    (hj : v.job = some j) (hj' : w.job = some j') (h : j.ctx = j'.ctx) : t = u := by
  cases hp : j.proc with
  | true => exact hI.one (hI.jobProc t v j ht hj hp) t u v w ht hu (by rw [hj]; nofun) (by rw [hj']; nofun)
  | false =>
    obtain ⟨h1, h2⟩ := hI.jobThread t v j ht hj hp
    cases hp' : j'.proc with
    | true => exact absurd (h1.symm.trans (hI.jobProc u w j' hu hj' hp')) nofun
    | false => exact hI.slotInj t u v w j.ctx ht hu h2 (by rw [h]; exact (hI.jobThread u w j' hu hj' hp').2)

/-- What a step must do: keep the invariant, not be undefined, and lose nothing. -/
structure Good (s : St) (r : St × List Ev) : Prop where
  inv : Inv r.1
  ub : ∀ t, Ev.ub t ∉ r.2
  bal : ∀ x, held x r.1 + settled x r.2 + lostIn x r.2 = held x s + given x r.2

theorem exists_set {s : St} {i j : Nat} {c' : Ctx} {c : Ctx} (h : s.heap[i]? = some (some c)) :
    Exists { s with heap := s.heap.set i (some c') } j ↔ Exists s j := by
  unfold Exists
  by_cases hij : i = j
  · subst hij
    simp only [get_set_self h]
    exact ⟨fun _ => ⟨_, h⟩, fun _ => ⟨_, rfl⟩⟩
  · simp only [get_set_ne hij]

/-- A context is changed. -/
theorem inv_heap {s : St} (hI : Inv s) {i : Nat} {c c' : Ctx} (h : s.heap[i]? = some (some c)) (hc : c'.storage.length ≤ s.table.length)
    (hn : ∀ (t : Nat) (th : Thread) (j : Job) l, s.threads[t]? = some th → th.job = some j → j.ph = .notify l → j.ctx = i → c'.storage = [] ∧ c'.notify = []) :
    Inv { s with heap := s.heap.set i (some c') } where
  alive := hI.alive
  slotLive hm t th j h1 h2 := (exists_set h).mpr (hI.slotLive hm t th j h1 h2)
  slotInj := hI.slotInj
  jobCtx t th j h1 h2 := (exists_set h).mpr (hI.jobCtx t th j h1 h2)
  jobThread := hI.jobThread
  jobProc := hI.jobProc
  one := hI.one
  gone hm := absurd ⟨c, h⟩ ((hI.gone hm).2 i)
  absent hm := by
    have := (hI.absent hm).1
    rw [this] at h
    cases h
  size j d hd := by
    rcases get_set_cases hd with ⟨_, h2⟩ | ⟨_, h2⟩
    · cases h2; exact hc
    · exact hI.size j d h2
  sizeJob := hI.sizeJob
  key := hI.key
  ntf t th j l h1 h2 h3 := ⟨(hI.ntf t th j l h1 h2 h3).1, fun d hd => by
    rcases get_set_cases hd with ⟨h4, h5⟩ | ⟨_, h5⟩
    · cases h5; exact hn t th j l h1 h2 h3 h4.symm
    · exact (hI.ntf t th j l h1 h2 h3).2 d h5⟩
  tab := hI.tab

/-- The hook of a thread goes on. -/
theorem inv_goto {s : St} (hI : Inv s) {t : Nat} {th : Thread} {j : Job} (ht : s.threads[t]? = some th) (hj : th.job = some j) {ph : Phase} {cb : Bool}
    (hp : ∀ k l, ph = .tls k l → k + l.length ≤ s.table.length)
    (hn : ∀ l, ph = .notify l → cb = false ∧ ∀ c, s.heap[j.ctx]? = some (some c) → c.storage = [] ∧ c.notify = []) :
    Inv { s with threads := s.threads.set t { th with job := some { j with ph := ph, cb := cb } } } := by
  have key : ∀ (u : Nat) (v : Thread), (s.threads.set t { th with job := some { j with ph := ph, cb := cb } })[u]? = some v →
      ∃ w, s.threads[u]? = some w ∧ v.slot = w.slot ∧ (v.job ≠ none → w.job ≠ none) ∧
        ∀ j', v.job = some j' → ∃ j'', w.job = some j'' ∧ j'.ctx = j''.ctx ∧ j'.proc = j''.proc ∧ ((j'.ph = ph ∧ j'.cb = cb ∧ j'' = j) ∨ (j'.ph = j''.ph ∧ j'.cb = j''.cb)) := by
    intro u v hv
    rcases get_set_cases hv with ⟨h1, h2⟩ | ⟨h1, h2⟩
    · subst h1; subst h2
      exact ⟨th, ht, rfl, fun _ => by rw [hj]; nofun, fun j' h => by cases h; exact ⟨j, hj, rfl, rfl, .inl ⟨rfl, rfl, rfl⟩⟩⟩
    · exact ⟨v, h2, rfl, id, fun j' h => ⟨j', h, rfl, rfl, .inr ⟨rfl, rfl⟩⟩⟩
  refine ⟨hI.alive, ?_, ?_, ?_, ?_, ?_, ?_, hI.gone, ?_, hI.size, ?_, hI.key, ?_, hI.tab⟩
  · intro hm u v i hu hi
    obtain ⟨w, h1, h2, _⟩ := key u v hu
    exact hI.slotLive hm u w i h1 (h2 ▸ hi)
  · intro u u' v v' i hu hu' hi hi'
    obtain ⟨w, h1, h2, _⟩ := key u v hu
    obtain ⟨w', h1', h2', _⟩ := key u' v' hu'
    exact hI.slotInj u u' w w' i h1 h1' (h2 ▸ hi) (h2' ▸ hi')
  · intro u v j' hu hj'
    obtain ⟨w, h1, _, _, h4⟩ := key u v hu
    obtain ⟨j'', h5, h6, _⟩ := h4 j' hj'
    rw [h6]
    exact hI.jobCtx u w j'' h1 h5
  · intro u v j' hu hj' hp'
    obtain ⟨w, h1, h2, _, h4⟩ := key u v hu
    obtain ⟨j'', h5, h6, h7, _⟩ := h4 j' hj'
    rw [h6, h2]
    exact hI.jobThread u w j'' h1 h5 (h7 ▸ hp')
  · intro u v j' hu hj' hp'
    obtain ⟨w, h1, h2, _, h4⟩ := key u v hu
    obtain ⟨j'', h5, h6, h7, _⟩ := h4 j' hj'
    exact hI.jobProc u w j'' h1 h5 (h7 ▸ hp')
  · intro hm u u' v v' hu hu' hn hn'
    obtain ⟨w, h1, _, h3, _⟩ := key u v hu
    obtain ⟨w', h1', _, h3', _⟩ := key u' v' hu'
    exact hI.one hm u u' w w' h1 h1' (h3 hn) (h3' hn')
  · intro hm
    refine ⟨(hI.absent hm).1, fun u v hu => ?_⟩
    obtain ⟨w, h1, h2, _⟩ := key u v hu
    rw [h2]
    exact (hI.absent hm).2 u w h1
  · intro u v j' k l hu hj' hl
    obtain ⟨w, h1, _, _, h4⟩ := key u v hu
    obtain ⟨j'', h5, _, _, h8⟩ := h4 j' hj'
    rcases h8 with ⟨h8, _⟩ | ⟨h8, _⟩
    · exact hp k l (h8 ▸ hl)
    · exact hI.sizeJob u w j'' k l h1 h5 (h8 ▸ hl)
  · intro u v j' l hu hj' hl
    obtain ⟨w, h1, _, _, h4⟩ := key u v hu
    obtain ⟨j'', h5, h6, _, h8⟩ := h4 j' hj'
    rw [h6]
    rcases h8 with ⟨h8, h9, h10⟩ | ⟨h8, h9⟩
    · rw [h9, h10]; exact hn l (h8 ▸ hl)
    · rw [h9]; exact hI.ntf u w j'' l h1 h5 (h8 ▸ hl)

theorem held_heap {s : St} {i : Nat} {c : Ctx} (h : s.heap[i]? = some (some c)) (o : Option Ctx) (x : Item) :
    held x { s with heap := s.heap.set i o } + c.items.count x = held x s + ((o.map Ctx.items).getD []).count x := by
  have := sum_set (f := fun o : Option Ctx => ((o.map Ctx.items).getD []).count x) h o
  simp only [Option.map_some, Option.getD_some] at this
  unfold held
  simp only
  omega

theorem held_thread {s : St} {t : Nat} {th : Thread} (h : s.threads[t]? = some th) (th' : Thread) (x : Item) :
    held x { s with threads := s.threads.set t th' } + ((th.job.map (·.ph.items)).getD []).count x =
      held x s + ((th'.job.map (·.ph.items)).getD []).count x := by
  have := sum_set (f := fun th : Thread => ((th.job.map (·.ph.items)).getD []).count x) h th'
  unfold held
  simp only at this ⊢
  omega

/-- The destructor of the manager goes on, from a state in which the context it was dealing with is gone. -/
theorem good_procLoop {s : St} {t : Nat} {th : Thread} (ht : s.threads[t]? = some th) (hm : s.mgr = .dying) (ha : s.dead = false) (hk : s.keyFreed = false)
    (hinj : ∀ (t t' : Nat) (th th' : Thread) (i : Nat), s.threads[t]? = some th → s.threads[t']? = some th' → th.slot = some i → th'.slot = some i → t = t')
    (hone : ∀ (t' : Nat) (th' : Thread), s.threads[t']? = some th' → th'.job ≠ none → t' = t)
    (hsize : ∀ (i : Nat) (c : Ctx), s.heap[i]? = some (some c) → c.storage.length ≤ s.table.length) :
    Inv (procLoop s t th).1 ∧ (∀ u, Ev.ub u ∉ (procLoop s t th).2) ∧
    (∀ x, held x (procLoop s t th).1 + ((th.job.map (·.ph.items)).getD []).count x = held x s) ∧
    ∀ x, settled x (procLoop s t th).2 = 0 ∧ given x (procLoop s t th).2 = 0 ∧ lostIn x (procLoop s t th).2 = 0 := by
  unfold procLoop
  split
  · next i hf =>
    have hex : Exists s i := by
      obtain ⟨h1, h2, _⟩ := List.findIdx?_eq_some_iff_getElem.mp hf
      cases hg : s.heap[i] with
      | none => rw [hg] at h2; simp at h2
      | some c => exact ⟨c, by rw [List.getElem?_eq_getElem h1, hg]⟩
    refine ⟨⟨ha, ?_, ?_, ?_, ?_, ?_, ?_, ?_, ?_, hsize, ?_, ?_, ?_, fun h => absurd (hm.symm.trans h) nofun⟩, fun u h => (by cases h), ?_, fun x => ⟨rfl, rfl, rfl⟩⟩
    · intro hl; exact absurd (hm.symm.trans hl) nofun
    · intro u u' v v' j hu hu' hv hv'
      have key : ∀ (u : Nat) (v : Thread), (s.threads.set t { th with job := some ⟨i, .atExit [], false, true⟩ })[u]? = some v →
          ∃ w, s.threads[u]? = some w ∧ v.slot = w.slot := fun u v hv => by
        rcases get_set_cases hv with ⟨h1, h2⟩ | ⟨h1, h2⟩
        · subst h1; subst h2; exact ⟨th, ht, rfl⟩
        · exact ⟨v, h2, rfl⟩
      obtain ⟨w, h1, h2⟩ := key u v hu
      obtain ⟨w', h1', h2'⟩ := key u' v' hu'
      exact hinj u u' w w' j h1 h1' (h2 ▸ hv) (h2' ▸ hv')
    · intro u v j hu hv
      rcases get_set_cases hu with ⟨h1, h2⟩ | ⟨h1, h2⟩
      · subst h2; cases hv; exact hex
      · exact absurd (hone u v h2 (by rw [hv]; nofun)) (Ne.symm h1)
    · intro u v j hu hv hp
      rcases get_set_cases hu with ⟨h1, h2⟩ | ⟨h1, h2⟩
      · subst h2; cases hv; cases hp
      · exact absurd (hone u v h2 (by rw [hv]; nofun)) (Ne.symm h1)
    · intro u v j hu hv hp; exact hm
    · intro _ u u' v v' hu hu' hv hv'
      have key : ∀ (u : Nat) (v : Thread), (s.threads.set t { th with job := some ⟨i, .atExit [], false, true⟩ })[u]? = some v → v.job ≠ none → u = t := fun u v hu hv => by
        rcases get_set_cases hu with ⟨h1, h2⟩ | ⟨h1, h2⟩
        · exact h1.symm
        · exact hone u v h2 hv
      rw [key u v hu hv, key u' v' hu' hv']
    · intro h; exact absurd (hm.symm.trans h) nofun
    · intro h; exact absurd (hm.symm.trans h) nofun
    · intro u v j k l hu hv hl
      rcases get_set_cases hu with ⟨h1, h2⟩ | ⟨h1, h2⟩
      · subst h2; cases hv; cases hl
      · exact absurd (hone u v h2 (by rw [hv]; nofun)) (Ne.symm h1)
    · intro h; rw [hk] at h; cases h
    · intro u v j l hu hv hl
      rcases get_set_cases hu with ⟨h1, h2⟩ | ⟨h1, h2⟩
      · subst h2; cases hv; cases hl
      · exact absurd (hone u v h2 (by rw [hv]; nofun)) (Ne.symm h1)
    · intro x
      have := held_thread ht { th with job := some ⟨i, .atExit [], false, true⟩ } x
      simpa [Phase.items] using this
  · next hf =>
    have hno : ∀ i, ¬ Exists s i := by
      rintro i ⟨c, hc⟩
      have := List.findIdx?_eq_none_iff.mp hf (some c) (List.mem_of_getElem? hc)
      cases this
    have key : ∀ (u : Nat) (v : Thread), (s.threads.set t { th with job := none })[u]? = some v → v.job = none ∧ ∃ w, s.threads[u]? = some w ∧ v.slot = w.slot := by
      intro u v hv
      rcases get_set_cases hv with ⟨h1, h2⟩ | ⟨h1, h2⟩
      · subst h1; subst h2; exact ⟨rfl, th, ht, rfl⟩
      · refine ⟨?_, v, h2, rfl⟩
        cases hj : v.job with
        | none => rfl
        | some j => exact absurd (hone u v h2 (by rw [hj]; nofun)) (Ne.symm h1)
    refine ⟨⟨ha, nofun, ?_, ?_, ?_, ?_, nofun, fun _ => ⟨rfl, hno⟩, nofun, hsize, ?_, fun _ => rfl, ?_, nofun⟩, fun u h => (by simp at h), ?_, fun x => ⟨rfl, rfl, rfl⟩⟩
    · intro u u' v v' j hu hu' hv hv'
      obtain ⟨_, w, h1, h2⟩ := key u v hu
      obtain ⟨_, w', h1', h2'⟩ := key u' v' hu'
      exact hinj u u' w w' j h1 h1' (h2 ▸ hv) (h2' ▸ hv')
    · intro u v j hu hv; rw [(key u v hu).1] at hv; cases hv
    · intro u v j hu hv; rw [(key u v hu).1] at hv; cases hv
    · intro u v j hu hv; rw [(key u v hu).1] at hv; cases hv
    · intro u v j k l hu hv; rw [(key u v hu).1] at hv; cases hv
    · intro u v j l hu hv; rw [(key u v hu).1] at hv; cases hv
    · intro x
      have := held_thread ht { th with job := none } x
      simpa [held] using this

theorem settled_dispose (x : Item) (t k : Nat) (b : Bool) (v : Nat) : isSettled x (dispose t k b v) = (x == .val k v) := by
  cases b <;> (simp [dispose, isSettled]; rfl)

theorem gave_dispose (x : Item) (t k : Nat) (b : Bool) (v : Nat) : isGave x (dispose t k b v) = false := by
  cases b <;> rfl

theorem lost_dispose (x : Item) (t k : Nat) (b : Bool) (v : Nat) : isLost x (dispose t k b v) = false := by
  cases b <;> rfl

theorem ub_dispose {t u k : Nat} {b : Bool} {v : Nat} : Ev.ub u ≠ dispose t k b v := by
  cases b <;> nofun

/-- A step of the hook that leaves the contexts alone. -/
theorem good_goto {s : St} (hI : Inv s) {t : Nat} {th : Thread} {j : Job} (ht : s.threads[t]? = some th) (hj : th.job = some j) {ph : Phase} {cb : Bool}
    {es : List Ev} (hp : ∀ k l, ph = .tls k l → k + l.length ≤ s.table.length)
    (hn : ∀ l, ph = .notify l → cb = false ∧ ∃ l', j.ph = .notify l') (hub : ∀ u, Ev.ub u ∉ es) (hg : ∀ x, given x es = 0 ∧ lostIn x es = 0)
    (hb : ∀ x, ph.items.count x + settled x es = j.ph.items.count x) :
    Good s ({ s with threads := s.threads.set t { th with job := some { j with ph := ph, cb := cb } } }, es) := by
  refine ⟨inv_goto hI ht hj hp (fun l h => ⟨(hn l h).1, by obtain ⟨l', h'⟩ := (hn l h).2; exact (hI.ntf t th j l' ht hj h').2⟩), hub, fun x => ?_⟩
  have h1 := held_thread ht { th with job := some { j with ph := ph, cb := cb } } x
  simp only [hj, Option.map_some, Option.getD_some] at h1
  have h2 := hb x
  have h3 := hg x
  simp only at *
  omega

/-- A step of the hook that changes the context it destroys. -/
theorem good_move {s : St} (hI : Inv s) {t : Nat} {th : Thread} {j : Job} (ht : s.threads[t]? = some th) (hj : th.job = some j) {ph : Phase} {cb : Bool}
    {c c' : Ctx} (hc : s.heap[j.ctx]? = some (some c)) (hl : c'.storage.length ≤ s.table.length)
    (hp : ∀ k l, ph = .tls k l → k + l.length ≤ s.table.length) (hnot : ∀ l, j.ph ≠ .notify l)
    (hn : ∀ l, ph = .notify l → cb = false ∧ c'.storage = [] ∧ c'.notify = [])
    (hb : ∀ x, ph.items.count x + c'.items.count x = j.ph.items.count x + c.items.count x) :
    Good s ({ s with heap := s.heap.set j.ctx (some c'),
                     threads := s.threads.set t { th with job := some { j with ph := ph, cb := cb } } }, []) := by
  refine ⟨inv_goto (inv_heap hI hc hl fun u v j' l hu hj' hl' hc' => ?_) ht hj hp fun l h => ⟨(hn l h).1, fun d hd => ?_⟩, fun u => nofun, fun x => ?_⟩
  · have e := job_inj hI hu ht hj' hj hc'
    subst e
    rw [ht] at hu; cases hu
    rw [hj] at hj'; cases hj'
    exact absurd hl' (hnot l)
  · simp only [get_set_self hc, Option.some.injEq] at hd
    subst hd
    exact (hn l h).2
  have h0 := held_heap hc (some c') x
  have h1 := held_thread (s := { s with heap := s.heap.set j.ctx (some c') }) ht { th with job := some { j with ph := ph, cb := cb } } x
  simp only [hj, Option.map_some, Option.getD_some] at h1 h0
  have h2 := hb x
  simp only [settled, given, lostIn, List.countP_nil] at *
  omega

theorem lost_map (t : Nat) (l : List Nat) (x : Item) : lostIn x (l.map (.lost t)) = (l.map Item.cb).count x := by
  induction l with
  | nil => rfl
  | cons i l ih =>
    simp only [lostIn, List.map_cons, List.countP_cons, List.count_cons, isLost] at *
    rw [ih]
    by_cases h : x = .cb i
    · subst h; simp
    · have : ¬ Item.cb i = x := fun e => h e.symm
      simp [h, this]

theorem map_lost_zero (t : Nat) (l : List Nat) (x : Item) : settled x (l.map (.lost t)) = 0 ∧ given x (l.map (.lost t)) = 0 := by
  constructor
  · exact List.countP_eq_zero.mpr fun e he => by obtain ⟨i, _, rfl⟩ := List.mem_map.mp he; simp [isSettled]
  · exact List.countP_eq_zero.mpr fun e he => by obtain ⟨i, _, rfl⟩ := List.mem_map.mp he; simp [isGave]

theorem good_next {s : St} (hI : Inv s) {t : Nat} {th : Thread} {j : Job} (ht : s.threads[t]? = some th) (hj : th.job = some j) :
    ∃ r, next s t th j = some r ∧ Good s r := by
  obtain ⟨c, hc⟩ := hI.jobCtx t th j ht hj
  have hsz := hI.size _ _ hc
  unfold next
  simp only [hc]
  cases hph : j.ph with
  | atExit l =>
    cases l with
    | cons i rest =>
      refine ⟨_, rfl, good_goto hI ht hj nofun nofun (fun u h => by simp at h) (fun x => ⟨rfl, rfl⟩) fun x => ?_⟩
      rw [hph]
      simp only [Phase.items, List.map_cons, List.count_cons, settled, List.countP_cons, List.countP_nil, isSettled]
      by_cases h : x = .cb i
      · subst h; simp
      · have : ¬ Item.cb i = x := fun e => h e.symm
        simp [h, this]
    | nil =>
      simp only
      split
      · refine ⟨_, rfl, good_goto hI ht hj (fun k l h => by cases h; simp) nofun (fun u h => by cases h) (fun x => ⟨rfl, rfl⟩) fun x => ?_⟩
        rw [hph]; rfl
      · refine ⟨_, rfl, good_move hI ht hj hc hsz nofun (by rw [hph]; nofun) nofun fun x => ?_⟩
        rw [hph]
        simp only [Phase.items, Ctx.items, List.map_nil, List.count_append, List.map_reverse, List.count_reverse, List.count_nil]
        omega
  | tls k l =>
    have hb := hI.sizeJob t th j k l ht hj hph
    cases l with
    | cons o rest =>
      simp only [List.length_cons] at hb
      cases o with
      | none =>
        refine ⟨_, rfl, good_goto hI ht hj (fun k l h => by cases h; omega) nofun (fun u h => by cases h) (fun x => ⟨rfl, rfl⟩) fun x => ?_⟩
        rw [hph]; rfl
      | some v =>
        simp only
        have hk : ∃ b, s.table[k]? = some b := ⟨_, List.getElem?_eq_getElem (by omega)⟩
        obtain ⟨b, hk⟩ := hk
        rw [hk]
        refine ⟨_, rfl, good_goto hI ht hj (fun k l h => by cases h; omega) nofun (fun u h => ub_dispose (List.mem_singleton.mp h))
          (fun x => by simp [given, lostIn, gave_dispose, lost_dispose]) fun x => ?_⟩
        rw [hph]
        simp only [Phase.items, vals, List.count_cons, settled, List.countP_cons, List.countP_nil, settled_dispose]
        by_cases h : x = .val k v
        · subst h; simp
        · have : ¬ Item.val k v = x := fun e => h e.symm
          simp [h, this]
    | nil =>
      simp only
      split
      · next hs =>
        refine ⟨_, rfl, good_move hI ht hj hc hsz nofun (by rw [hph]; nofun) (fun _ _ => ⟨rfl, hs, rfl⟩) fun x => ?_⟩
        rw [hph]
        simp only [Phase.items, Ctx.items, vals, List.map_nil, List.count_append, List.count_nil]
        omega
      · refine ⟨_, rfl, good_move hI ht hj hc (Nat.zero_le _) (fun k l h => by cases h; omega) (by rw [hph]; nofun) nofun fun x => ?_⟩
        rw [hph]
        simp only [Phase.items, Ctx.items, vals, List.count_append, List.count_nil]
        omega
  | notify l =>
    cases l with
    | cons m rest =>
      refine ⟨_, rfl, good_goto hI ht hj nofun (fun l _ => ⟨rfl, _, hph⟩) (fun u h => by simp at h) (fun x => ⟨rfl, rfl⟩) fun x => ?_⟩
      rw [hph]
      simp only [Phase.items, List.map_cons, List.count_cons, settled, List.countP_cons, List.countP_nil, isSettled]
      by_cases h : x = .ntf m
      · subst h; simp
      · have : ¬ Item.ntf m = x := fun e => h e.symm
        simp [h, this]
    | nil =>
      refine ⟨_, rfl, ?_⟩
      obtain ⟨hst, hnt⟩ := (hI.ntf t th j [] ht hj hph).2 c hc
      have hitems : ∀ x, c.items.count x = (c.atExit.map Item.cb).count x := fun x => by simp [Ctx.items, hst, hnt, vals]
      have hex : ∀ i, Exists { s with heap := s.heap.set j.ctx none } i ↔ Exists s i ∧ i ≠ j.ctx := fun i => by
        unfold Exists
        by_cases h : j.ctx = i
        · subst h; simp [get_set_self hc]
        · simp only [get_set_ne h]; exact ⟨fun e => ⟨e, Ne.symm h⟩, fun e => e.1⟩
      have hsize : ∀ (i : Nat) (d : Ctx), (s.heap.set j.ctx none)[i]? = some (some d) → d.storage.length ≤ s.table.length := fun i d hd => by
        rcases get_set_cases hd with ⟨_, h2⟩ | ⟨_, h2⟩
        · cases h2
        · exact hI.size i d h2
      unfold finish
      simp only
      cases hpr : j.proc with
      | true =>
        have hm := hI.jobProc t th j ht hj hpr
        obtain ⟨h1, h2, h3, h4⟩ := good_procLoop (s := { s with heap := s.heap.set j.ctx none }) ht hm hI.alive
          (by cases hk : s.keyFreed with
              | false => rfl
              | true => exact absurd (hm.symm.trans (hI.key hk)) nofun) hI.slotInj
          (fun u v hu hv => hI.one hm u t v th hu ht hv (by rw [hj]; nofun)) hsize
        refine ⟨h1, fun u hu => ?_, fun x => ?_⟩
        · rcases List.mem_append.mp hu with hu | hu
          · obtain ⟨i, _, e⟩ := List.mem_map.mp hu; cases e
          · exact h2 u hu
        · have e1 := h3 x
          have e2 := held_heap hc none x
          obtain ⟨e3, e4, e5⟩ := h4 x
          obtain ⟨e6, e7⟩ := map_lost_zero t c.atExit x
          have e8 := lost_map t c.atExit x
          simp only [hj, hph, Phase.items, Option.map_some, Option.getD_some, List.map_nil, List.count_nil, Option.map_none, Option.getD_none, hitems] at e1 e2
          simp only [settled, given, lostIn, List.countP_append, if_true] at *
          omega
      | false =>
        obtain ⟨hm, hsl⟩ := hI.jobThread t th j ht hj hpr
        have key : ∀ (u : Nat) (v : Thread), (s.threads.set t ⟨none, none⟩)[u]? = some v → (u ≠ t ∧ s.threads[u]? = some v) ∨ v = ⟨none, none⟩ :=
          fun u v hv => by
            rcases get_set_cases hv with ⟨h1, h2⟩ | ⟨h1, h2⟩
            · exact .inr h2
            · exact .inl ⟨Ne.symm h1, h2⟩
        refine ⟨⟨hI.alive, ?_, ?_, ?_, ?_, ?_, ?_, ?_, ?_, hsize, ?_, hI.key, ?_, hI.tab⟩, ?_, ?_⟩
        · intro _ u v i hu hv
          rcases key u v hu with ⟨h1, h2⟩ | h2
          · exact (hex i).mpr ⟨hI.slotLive hm u v i h2 hv, fun e => h1 (hI.slotInj u t v th i h2 ht hv (by rw [hsl, e]))⟩
          · subst h2; cases hv
        · intro u u' v v' i hu hu' hv hv'
          rcases key u v hu with ⟨h1, h2⟩ | h2
          · rcases key u' v' hu' with ⟨h1', h2'⟩ | h2'
            · exact hI.slotInj u u' v v' i h2 h2' hv hv'
            · subst h2'; cases hv'
          · subst h2; cases hv
        · intro u v j' hu hv
          rcases key u v hu with ⟨h1, h2⟩ | h2
          · exact (hex _).mpr ⟨hI.jobCtx u v j' h2 hv, fun e => h1 (job_inj hI h2 ht hv hj e)⟩
          · subst h2; cases hv
        · intro u v j' hu hv hp
          rcases key u v hu with ⟨h1, h2⟩ | h2
          · exact hI.jobThread u v j' h2 hv hp
          · subst h2; cases hv
        · intro u v j' hu hv hp
          rcases key u v hu with ⟨h1, h2⟩ | h2
          · exact hI.jobProc u v j' h2 hv hp
          · subst h2; cases hv
        · intro h; exact absurd (hm.symm.trans h) nofun
        · intro h; exact absurd (hm.symm.trans h) nofun
        · intro h; exact absurd (hm.symm.trans h) nofun
        · intro u v j' k l hu hv hl
          rcases key u v hu with ⟨h1, h2⟩ | h2
          · exact hI.sizeJob u v j' k l h2 hv hl
          · subst h2; cases hv
        · intro u v j' l hu hv hl
          rcases key u v hu with ⟨h1, h2⟩ | h2
          · refine ⟨(hI.ntf u v j' l h2 hv hl).1, fun d hd => ?_⟩
            rcases get_set_cases hd with ⟨_, h4⟩ | ⟨_, h4⟩
            · cases h4
            · exact (hI.ntf u v j' l h2 hv hl).2 d h4
          · subst h2; cases hv
        · intro u hu
          rcases List.mem_append.mp hu with hu | hu
          · obtain ⟨i, _, e⟩ := List.mem_map.mp hu; cases e
          · simp at hu
        · intro x
          have e1 := held_thread (s := { s with heap := s.heap.set j.ctx none }) ht ⟨none, none⟩ x
          have e2 := held_heap hc none x
          obtain ⟨e6, e7⟩ := map_lost_zero t c.atExit x
          have e8 := lost_map t c.atExit x
          simp only [hj, hph, Phase.items, Option.map_some, Option.getD_some, List.map_nil, List.count_nil, Option.map_none, Option.getD_none, hitems] at e1 e2
          simp only [settled, given, lostIn, List.countP_append, Bool.false_eq_true, if_false, List.countP_cons, List.countP_nil, isSettled, isGave, isLost] at *
          omega

/-- The state in which the manager exists (tss_windows.cpp 159, 171, 185, 199). -/
def inited (s : St) : St := if s.mgr = .absent then { s with mgr := .live } else s

theorem inv_inited {s : St} (hI : Inv s) : Inv (inited s) := by
  unfold inited
  split
  · next hm =>
    obtain ⟨h1, h2⟩ := hI.absent hm
    have hj : ∀ (t : Nat) (th : Thread), s.threads[t]? = some th → th.job = none := fun t th ht => by
      cases hj : th.job with
      | none => rfl
      | some j =>
        obtain ⟨c, hc⟩ := hI.jobCtx t th j ht hj
        rw [h1] at hc; cases hc
    refine ⟨hI.alive, ?_, hI.slotInj, hI.jobCtx, ?_, ?_, nofun, nofun, nofun, hI.size, hI.sizeJob, ?_, hI.ntf, nofun⟩
    · intro _ t th i ht hi; rw [h2 t th ht] at hi; cases hi
    · intro t th j ht hj'; rw [hj t th ht] at hj'; cases hj'
    · intro t th j ht hj'; rw [hj t th ht] at hj'; cases hj'
    · intro h; exact absurd (hm.symm.trans (hI.key h)) nofun
  · exact hI

theorem inited_same {s : St} : (inited s).heap = s.heap ∧ (inited s).threads = s.threads ∧ (inited s).table = s.table ∧ (inited s).freed = s.freed ∧
    (inited s).keyFreed = s.keyFreed ∧ (inited s).mgr ≠ .absent ∧ ∀ x, held x (inited s) = held x s := by
  unfold inited
  split
  · exact ⟨rfl, rfl, rfl, rfl, rfl, nofun, fun _ => rfl⟩
  · next h => exact ⟨rfl, rfl, rfl, rfl, rfl, h, fun _ => rfl⟩

theorem good_of_inited {s : St} {r : St × List Ev} (h : Good (inited s) r) : Good s r :=
  ⟨h.inv, h.ub, fun x => by rw [h.bal x, inited_same.2.2.2.2.2.2 x]⟩

theorem good_same {s : St} (hI : Inv s) {es : List Ev} (hub : ∀ u, Ev.ub u ∉ es) (h : ∀ x, settled x es = 0 ∧ given x es = 0 ∧ lostIn x es = 0) :
    Good s (s, es) := ⟨hI, hub, fun x => by obtain ⟨h1, h2, h3⟩ := h x; simp only; omega⟩

/-- A thread with no context gets one. -/
theorem good_fresh {s : St} (hI : Inv s) (hm : s.mgr = .live) {t : Nat} {th : Thread} (ht : s.threads[t]? = some th) (hs : th.slot = none) {c : Ctx}
    (hc : c.storage.length ≤ s.table.length) {es : List Ev} (hub : ∀ u, Ev.ub u ∉ es)
    (hb : ∀ x, c.items.count x + settled x es + lostIn x es = given x es) :
    Good s ({ s with heap := s.heap ++ [some c], threads := s.threads.set t { th with slot := some s.heap.length } }, es) := by
  have hj : th.job = none := by
    cases hj : th.job with
    | none => rfl
    | some j =>
      cases hp : j.proc with
      | true => exact absurd (hm.symm.trans (hI.jobProc t th j ht hj hp)) nofun
      | false => exact absurd ((hI.jobThread t th j ht hj hp).2.symm.trans hs) nofun
  have hlt : ∀ i, Exists s i → i < s.heap.length := fun i ⟨d, hd⟩ => (List.getElem?_eq_some_iff.mp hd).1
  have hex : ∀ i, Exists s i → ∀ s', s'.heap = s.heap ++ [some c] → Exists s' i := fun i hi s' e => by
    obtain ⟨d, hd⟩ := hi
    exact ⟨d, by rw [e, List.getElem?_append_left (hlt i ⟨d, hd⟩)]; exact hd⟩
  have hback : ∀ i d, (s.heap ++ [some c])[i]? = some (some d) → s.heap[i]? = some (some d) ∨ d = c := fun i d h => by
    rw [List.getElem?_append] at h
    split at h
    · exact .inl h
    · right
      have := List.mem_of_getElem? h
      simpa using this
  have key : ∀ (u : Nat) (v : Thread), (s.threads.set t { th with slot := some s.heap.length })[u]? = some v →
      (u ≠ t ∧ s.threads[u]? = some v) ∨ (u = t ∧ v = { th with slot := some s.heap.length }) := fun u v hv => by
    rcases get_set_cases hv with ⟨h1, h2⟩ | ⟨h1, h2⟩
    · exact .inr ⟨h1.symm, h2⟩
    · exact .inl ⟨Ne.symm h1, h2⟩
  refine ⟨⟨hI.alive, ?_, ?_, ?_, ?_, ?_, ?_, ?_, ?_, ?_, ?_, hI.key, ?_, hI.tab⟩, hub, ?_⟩
  · intro _ u v i hu hv
    rcases key u v hu with ⟨_, h2⟩ | ⟨_, h2⟩
    · exact hex i (hI.slotLive hm u v i h2 hv) _ rfl
    · subst h2; cases hv; exact ⟨c, by simp⟩
  · intro u u' v v' i hu hu' hv hv'
    rcases key u v hu with ⟨_, h2⟩ | ⟨h1, h2⟩
    · rcases key u' v' hu' with ⟨_, h2'⟩ | ⟨_, h2'⟩
      · exact hI.slotInj u u' v v' i h2 h2' hv hv'
      · subst h2'; cases hv'
        exact absurd (hlt _ (hI.slotLive hm u v _ h2 hv)) (Nat.lt_irrefl _)
    · rcases key u' v' hu' with ⟨_, h2'⟩ | ⟨h1', _⟩
      · subst h2; cases hv
        exact absurd (hlt _ (hI.slotLive hm u' v' _ h2' hv')) (Nat.lt_irrefl _)
      · rw [h1, h1']
  · intro u v j hu hv
    rcases key u v hu with ⟨_, h2⟩ | ⟨_, h2⟩
    · exact hex _ (hI.jobCtx u v j h2 hv) _ rfl
    · subst h2; rw [hj] at hv; cases hv
  · intro u v j hu hv hp
    rcases key u v hu with ⟨_, h2⟩ | ⟨_, h2⟩
    · exact hI.jobThread u v j h2 hv hp
    · subst h2; rw [hj] at hv; cases hv
  · intro u v j hu hv hp
    rcases key u v hu with ⟨_, h2⟩ | ⟨_, h2⟩
    · exact hI.jobProc u v j h2 hv hp
    · subst h2; rw [hj] at hv; cases hv
  · intro h; exact absurd (hm.symm.trans h) nofun
  · intro h; exact absurd (hm.symm.trans h) nofun
  · intro h; exact absurd (hm.symm.trans h) nofun
  · intro i d hd
    rcases hback i d hd with h | h
    · exact hI.size i d h
    · subst h; exact hc
  · intro u v j k l hu hv hl
    rcases key u v hu with ⟨_, h2⟩ | ⟨_, h2⟩
    · exact hI.sizeJob u v j k l h2 hv hl
    · subst h2; rw [hj] at hv; cases hv
  · intro u v j l hu hv hl
    rcases key u v hu with ⟨_, h2⟩ | ⟨_, h2⟩
    · refine ⟨(hI.ntf u v j l h2 hv hl).1, fun d hd => ?_⟩
      have hx := hlt _ (hI.jobCtx u v j h2 hv)
      simp only [List.getElem?_append_left hx] at hd
      exact (hI.ntf u v j l h2 hv hl).2 d hd
    · subst h2; rw [hj] at hv; cases hv
  · intro x
    have e1 := held_thread ht { th with slot := some s.heap.length } x
    have e2 := hb x
    simp only [held, List.map_append, List.sum_append, List.map_cons, List.map_nil, List.sum_cons, List.sum_nil, Option.map_some, Option.getD_some] at e1 ⊢
    omega

/-- The context of a thread whose code is running changes. -/
theorem good_change {s : St} (hI : Inv s) {t : Nat} {th : Thread} (ht : s.threads[t]? = some th) (hu : userCode th = true) {i : Nat} (hs : th.slot = some i)
    (hd : s.mgr = .dying → inHook s t = true)
    {c c' : Ctx} (hc : s.heap[i]? = some (some c)) (hl : c'.storage.length ≤ s.table.length) {es : List Ev} (hub : ∀ u, Ev.ub u ∉ es)
    (hb : ∀ x, c'.items.count x + settled x es + lostIn x es = c.items.count x + given x es) :
    Good s ({ s with heap := s.heap.set i (some c') }, es) := by
  refine ⟨inv_heap hI hc hl fun u v j l h1 h2 h3 h4 => ?_, hub, fun x => ?_⟩
  · exfalso
    have e : u = t := by
      cases hp : j.proc with
      | true =>
        have hm := hI.jobProc u v j h1 h2 hp
        refine hI.one hm u t v th h1 ht (by rw [h2]; nofun) ?_
        have := hd hm
        unfold inHook at this
        rw [ht] at this
        intro hn
        simp [hn] at this
      | false => exact hI.slotInj u t v th i h1 ht (by rw [(hI.jobThread u v j h1 h2 hp).2, h4]) hs
    subst e
    rw [ht] at h1; cases h1
    have := (hI.ntf u th j l ht h2 h3).1
    unfold userCode at hu
    simp [h2, this] at hu
  · have e1 := held_heap hc (some c') x
    have e2 := hb x
    simp only [Option.map_some, Option.getD_some] at e1 ⊢
    omega

theorem put_length (c : Ctx) (k : Nat) (v : Option Nat) : (c.put k v).storage.length = max c.storage.length (k + 1) := by
  simp only [Ctx.put, List.length_set, List.length_append, List.length_replicate]
  omega

theorem count_vals_set {l : List (Option Nat)} {a k : Nat} {o : Option Nat} (h : l[k]? = some o) (v : Option Nat) (x : Item) :
    (vals a (l.set k v)).count x + (o.map (Item.val (a + k))).toList.count x = (vals a l).count x + (v.map (Item.val (a + k))).toList.count x := by
  induction l generalizing a k with
  | nil => simp at h
  | cons y l ih =>
    cases k with
    | zero =>
      simp only [List.getElem?_cons_zero, Option.some.injEq] at h
      subst h
      cases y <;> cases v <;> simp [vals, List.count_cons] <;> omega
    | succ k =>
      simp only [List.getElem?_cons_succ] at h
      have := ih (a := a + 1) h
      have e : a + (k + 1) = a + 1 + k := by omega
      rw [e]
      cases y <;> simp [vals, List.count_cons] at this ⊢ <;> omega

theorem vals_append_none (n : Nat) : ∀ (a : Nat) (l : List (Option Nat)), vals a (l ++ List.replicate n none) = vals a l := by
  intro a l
  induction l generalizing a with
  | nil =>
    induction n generalizing a with
    | zero => rfl
    | succ n ih => exact ih (a + 1)
  | cons y l ih =>
    cases y with
    | none => exact ih (a + 1)
    | some v => simp only [List.cons_append, vals, ih (a + 1)]

theorem put_items (c : Ctx) (k : Nat) (v : Option Nat) (x : Item) :
    (c.put k v).items.count x + ((c.get k).map (Item.val k)).toList.count x = c.items.count x + (v.map (Item.val k)).toList.count x := by
  have hk : (c.storage ++ List.replicate (k + 1 - c.storage.length) none)[k]? = some (c.get k) := by
    unfold Ctx.get
    by_cases h : k < c.storage.length
    · rw [List.getElem?_append_left h, List.getElem?_eq_getElem h]; rfl
    · rw [List.getElem?_append_right (by omega), List.getElem?_replicate, if_pos (by omega), List.getElem?_eq_none (by omega)]; rfl
  have := count_vals_set (a := 0) hk v x
  simp only [Ctx.items, Ctx.put, List.count_append, vals_append_none, Nat.zero_add] at this ⊢
  omega

/-- What a thread finds: nothing, or a context of its own. -/
theorem ptr_cases {tls : Bool} {s : St} {t : Nat} {th : Thread} (ht : s.threads[t]? = some th) :
    (ctxPtr tls s th = none ∧ noCtx tls s t = true ∧ hasCtx tls s t = false) ∨
    ∃ i, ctxPtr tls s th = some i ∧ th.slot = some i ∧ noCtx tls s t = false ∧
      (hasCtx tls s t = true ↔ ∃ c, s.heap[i]? = some (some c)) := by
  unfold ctxPtr noCtx hasCtx
  simp only [ht]
  obtain ⟨sl, jb⟩ := th
  cases hk : (!tls && s.keyFreed) with
  | true => left; cases sl <;> simp
  | false =>
    cases sl with
    | none => left; simp
    | some i =>
      right
      refine ⟨i, by simp, rfl, by simp, ?_⟩
      simp only [Bool.not_false, Bool.true_and]
      split
      · next c h => simp [h]
      · next h =>
        constructor
        · intro h'; cases h'
        · rintro ⟨c, hc⟩; exact absurd hc (h c)

/-- Once the manager exists, what a thread finds exists, or it is late. -/
theorem early {tls : Bool} {s : St} (hI : Inv s) {t : Nat} {th : Thread} (ht : s.threads[t]? = some th) (hm : s.mgr = .live ∨ s.mgr = .absent) :
    noCtx tls s t = true ∨ hasCtx tls s t = true := by
  rcases ptr_cases (tls := tls) ht with ⟨_, h, _⟩ | ⟨i, _, h2, _, h4⟩
  · exact .inl h
  · right
    rw [h4]
    rcases hm with hm | hm
    · exact hI.slotLive hm t th i ht h2
    · exact absurd ((hI.absent hm).2 t th ht ▸ h2) nofun

theorem slot_of_noCtx {tls : Bool} {s : St} (hI : Inv s) {th : Thread} (hm : s.mgr = .live)
    (h : ctxPtr tls s th = none) : th.slot = none := by
  unfold ctxPtr at h
  cases hk : s.keyFreed with
  | true => exact absurd (hm.symm.trans (hI.key hk)) nofun
  | false => simpa [hk] using h

/-- The context of the thread is changed, or made. -/
theorem good_update {tls : Bool} {s : St} (hI : Inv s) {t : Nat} {th : Thread} (ht : s.threads[t]? = some th) (hu : userCode th = true)
    (hd : s.mgr = .dying → inHook s t = true) (hok : (s.mgr = .live ∧ noCtx tls s t = true) ∨ hasCtx tls s t = true)
    {f : Ctx → Ctx} {es : List Ev} (hl : ∀ c, c.storage.length ≤ s.table.length → (f c).storage.length ≤ s.table.length)
    (hub : ∀ u, Ev.ub u ∉ es)
    (hb : ∀ c, (ctxPtr tls s th = none ∧ c = ⟨[], [], []⟩ ∨ (∃ i, ctxPtr tls s th = some i ∧ s.heap[i]? = some (some c))) →
      ∀ x, (f c).items.count x + settled x es + lostIn x es = c.items.count x + given x es) :
    ∃ r, update tls s t th f es = some r ∧ Good s r := by
  unfold update
  rcases ptr_cases (tls := tls) ht with ⟨h1, h2, h3⟩ | ⟨i, h1, h2, h3, h4⟩
  · rw [h1]
    rw [h3] at hok
    have hm : s.mgr = .live := by simpa [h2] using hok
    simp only [if_pos hm]
    refine ⟨_, rfl, good_fresh hI hm ht (slot_of_noCtx hI hm h1) (hl ⟨[], [], []⟩ (Nat.zero_le _)) hub fun x => ?_⟩
    rw [hb _ (.inl ⟨h1, rfl⟩) x]
    exact Nat.zero_add _
  · rw [h3] at hok
    have hh : hasCtx tls s t = true := by simpa using hok
    obtain ⟨c, hc⟩ := h4.mp hh
    rw [h1]
    simp only [hc]
    exact ⟨_, rfl, good_change hI ht hu h2 hd hc (hl c (hI.size i c hc)) hub (hb c (.inr ⟨i, h1, hc⟩))⟩

theorem disposed_count (t k : Nat) (b : Bool) (l : List Nat) (x : Item) :
    settled x (l.map (dispose t k b)) = (l.map (Item.val k)).count x ∧ given x (l.map (dispose t k b)) = 0 ∧ lostIn x (l.map (dispose t k b)) = 0 := by
  have hc : ∀ a : Nat, (x == Item.val k a) = (Item.val k a == x) := fun a => BEq.comm
  induction l with
  | nil => exact ⟨rfl, rfl, rfl⟩
  | cons v l ih =>
    obtain ⟨h1, h2, h3⟩ := ih
    simp only [settled, given, lostIn] at h1 h2 h3 ⊢
    simp only [List.map_cons, List.countP_cons, List.count_cons, settled_dispose, gave_dispose, lost_dispose, h1, h2, h3, hc]
    simp

theorem good_reset {tls : Bool} {s : St} (hI : Inv s) {t : Nat} {th : Thread} (ht : s.threads[t]? = some th) (hu : userCode th = true)
    (hd : s.mgr = .dying → inHook s t = true) {k : Nat} {v : Option Nat} (hk : k < s.table.length)
    (hok : (s.mgr = .live ∧ noCtx tls s t = true) ∨ (noCtx tls s t = true ∧ v = none) ∨ hasCtx tls s t = true) :
    ∃ r, reset tls s t th k v = some r ∧ Good s r := by
  have hes : ∀ (old : Option Nat) (x : Item),
      settled x ((v.map fun v => Ev.gave t (.val k v)).toList ++ (old.map (dispose t k (s.table[k]? = some true))).toList) = (old.map (Item.val k)).toList.count x ∧
      given x ((v.map fun v => Ev.gave t (.val k v)).toList ++ (old.map (dispose t k (s.table[k]? = some true))).toList) = (v.map (Item.val k)).toList.count x ∧
      lostIn x ((v.map fun v => Ev.gave t (.val k v)).toList ++ (old.map (dispose t k (s.table[k]? = some true))).toList) = 0 := by
    intro old x
    have e0 : (old.map (dispose t k (s.table[k]? = some true))).toList = old.toList.map (dispose t k (s.table[k]? = some true)) := by cases old <;> rfl
    have e1 : (old.map (Item.val k)).toList = old.toList.map (Item.val k) := by cases old <;> rfl
    obtain ⟨h1, h2, h3⟩ := disposed_count t k (s.table[k]? = some true) old.toList x
    simp only [settled, given, lostIn] at h1 h2 h3 ⊢
    rw [e0, e1]
    simp only [List.countP_append, h1, h2, h3]
    cases v with
    | none => simp
    | some a => simp [isSettled, isGave, isLost, List.count_cons]
  have hub : ∀ (old : Option Nat) (u : Nat),
      Ev.ub u ∉ ((v.map fun v => Ev.gave t (.val k v)).toList ++ (old.map (dispose t k (s.table[k]? = some true))).toList) := by
    intro old u h
    rcases List.mem_append.mp h with h | h
    · cases v <;> simp at h
    · cases old with
      | none => simp at h
      | some a => exact ub_dispose (List.mem_singleton.mp h)
  have hsz : ∀ c : Ctx, c.storage.length ≤ s.table.length → (c.put k v).storage.length ≤ s.table.length := fun c hc => by
    rw [put_length]; omega
  have hzero : Good s (s, ([] : List Ev)) := good_same hI (fun _ => nofun) fun _ => ⟨rfl, rfl, rfl⟩
  unfold reset
  rcases ptr_cases (tls := tls) ht with ⟨h1, h2, h3⟩ | ⟨i, h1, h2, h3, h4⟩
  · rw [h1]
    simp only
    split
    · exact ⟨_, rfl, hzero⟩
    · next hv =>
      have hm : s.mgr = .live := by
        rw [h3] at hok
        rcases hok with h | h | h
        · exact h.1
        · exact absurd h.2.symm hv
        · cases h
      refine good_update hI ht hu hd (.inl ⟨hm, h2⟩) hsz (hub none) fun c hc x => ?_
      rcases hc with ⟨_, rfl⟩ | ⟨i, hi, _⟩
      · obtain ⟨e1, e2, e3⟩ := hes none x
        have := put_items ⟨[], [], []⟩ k v x
        have e4 : (Ctx.get ⟨[], [], []⟩ k) = none := rfl
        rw [e4] at this
        omega
      · rw [h1] at hi; cases hi
  · rw [h1]
    have hh : hasCtx tls s t = true := by simpa [h3] using hok
    obtain ⟨c, hc⟩ := h4.mp hh
    simp only [hc]
    split
    · exact ⟨_, rfl, hzero⟩
    · refine good_update hI ht hu hd (.inr hh) hsz (hub (c.get k)) fun d hd x => ?_
      rcases hd with ⟨h, _⟩ | ⟨i', hi, hd⟩
      · rw [h1] at h; cases h
      · rw [h1] at hi; cases hi
        rw [hc] at hd; cases hd
        obtain ⟨e1, e2, e3⟩ := hes (c.get k) x
        have := put_items c k v x
        omega

theorem clear_storage (k : Nat) (c : Ctx) : (c.clear k).storage.length = c.storage.length ∧ (c.clear k).notify = c.notify ∧
    (c.clear k).atExit = c.atExit := by
  unfold Ctx.clear
  split <;> simp

theorem clear_items (k : Nat) (c : Ctx) (x : Item) : (c.clear k).items.count x + ((c.get k).map (Item.val k)).toList.count x = c.items.count x := by
  unfold Ctx.clear
  split
  · next h =>
    have hk : c.storage[k]? = some (c.get k) := by
      unfold Ctx.get at h ⊢
      cases hs : c.storage[k]? with
      | none => rw [hs] at h; cases h
      | some o => rfl
    have := count_vals_set (a := 0) hk none x
    simp only [Ctx.items, Nat.zero_add, List.count_append, Option.map_none, Option.toList_none, List.count_nil] at this ⊢
    omega
  · next h =>
    have : c.get k = none := by simpa using h
    rw [this]
    rfl

theorem sum_clear (k : Nat) (x : Item) (l : List (Option Ctx)) :
    ((l.map (Option.map (Ctx.clear k))).map fun o => ((o.map Ctx.items).getD []).count x).sum +
      ((l.filterMap (·.bind (·.get k))).map (Item.val k)).count x = (l.map fun o => ((o.map Ctx.items).getD []).count x).sum := by
  induction l with
  | nil => rfl
  | cons o l ih =>
    cases o with
    | none => simpa using ih
    | some c =>
      have h := clear_items k c x
      cases hg : c.get k with
      | none =>
        rw [hg] at h
        simp only [List.map_cons, List.sum_cons, Option.map_some, Option.getD_some, List.filterMap_cons, Option.bind_some, hg, Option.map_none,
          Option.toList_none, List.count_nil] at h ih ⊢
        omega
      | some v =>
        rw [hg] at h
        simp only [List.map_cons, List.sum_cons, Option.map_some, Option.getD_some, List.filterMap_cons, Option.bind_some, hg,
          Option.toList_some, List.count_cons, List.count_nil] at h ih ⊢
        omega

theorem good_deleteKey {s : St} (hI : Inv s) (hm : s.mgr = .live) {t k : Nat} : ∃ r, deleteKey s t k = some r ∧ Good s r := by
  unfold deleteKey
  rw [if_pos hm]
  have hback : ∀ (i : Nat) (d : Ctx), (s.heap.map (Option.map (Ctx.clear k)))[i]? = some (some d) → ∃ c, s.heap[i]? = some (some c) ∧ d = c.clear k := by
    intro i d h
    rw [List.getElem?_map] at h
    cases hs : s.heap[i]? with
    | none => rw [hs] at h; cases h
    | some o =>
      rw [hs] at h
      cases o with
      | none => cases h
      | some c => exact ⟨c, rfl, by simpa using h.symm⟩
  have hex : ∀ i, Exists s i → ∀ s' : St, s'.heap = s.heap.map (Option.map (Ctx.clear k)) → Exists s' i := fun i ⟨c, hc⟩ s' e =>
    ⟨c.clear k, by rw [e, List.getElem?_map, hc]; rfl⟩
  refine ⟨_, rfl, ⟨hI.alive, ?_, hI.slotInj, ?_, hI.jobThread, hI.jobProc, hI.one, ?_, ?_, ?_, ?_, hI.key, ?_, fun h => absurd (hm.symm.trans h) nofun⟩, ?_, ?_⟩
  · intro _ t th i h1 h2; exact hex i (hI.slotLive hm t th i h1 h2) _ rfl
  · intro t th j h1 h2; exact hex _ (hI.jobCtx t th j h1 h2) _ rfl
  · intro h; exact absurd (hm.symm.trans h) nofun
  · intro h; exact absurd (hm.symm.trans h) nofun
  · intro i d hd
    obtain ⟨c, h1, rfl⟩ := hback i d hd
    rw [(clear_storage k c).1]
    simpa using hI.size i c h1
  · intro t th j k' l h1 h2 h3
    simpa using hI.sizeJob t th j k' l h1 h2 h3
  · intro t th j l h1 h2 h3
    refine ⟨(hI.ntf t th j l h1 h2 h3).1, fun d hd => ?_⟩
    obtain ⟨c, h4, rfl⟩ := hback _ d hd
    obtain ⟨h5, h6⟩ := (hI.ntf t th j l h1 h2 h3).2 c h4
    refine ⟨List.eq_nil_of_length_eq_zero ?_, by rw [(clear_storage k c).2.1, h6]⟩
    rw [(clear_storage k c).1, h5]; rfl
  · intro u h
    rcases List.mem_cons.mp h with h | h
    · cases h
    · obtain ⟨v, _, e⟩ := List.mem_map.mp h
      exact ub_dispose e.symm
  · intro x
    have e1 := sum_clear k x s.heap
    obtain ⟨e2, e3, e4⟩ := disposed_count t k (s.table[k]? = some true) (s.heap.filterMap (·.bind (·.get k))) x
    have e5 : ∀ l, settled x (.deleted t k :: l) = settled x l ∧ given x (.deleted t k :: l) = given x l ∧ lostIn x (.deleted t k :: l) = lostIn x l :=
      fun l => ⟨List.countP_cons_of_neg nofun, List.countP_cons_of_neg nofun, List.countP_cons_of_neg nofun⟩
    simp only [held, e5] at *
    omega

theorem good_newKey {s : St} (hI : Inv s) (hm : s.mgr = .live ∨ s.mgr = .absent) {t : Nat} {b : Bool} : ∃ r, newKey s t b = some r ∧ Good s r := by
  have hI' := inv_inited hI
  have hm' : (inited s).mgr = .live := by
    unfold inited
    split
    · rfl
    · next h => rcases hm with hm | hm; exact hm; exact absurd hm h
  have key : ∀ (tb : List Bool) (fr : List Nat) (es : List Ev), (inited s).table.length ≤ tb.length → (∀ u, Ev.ub u ∉ es) →
      (∀ x, settled x es = 0 ∧ given x es = 0 ∧ lostIn x es = 0) → Good s ({ inited s with table := tb, freed := fr }, es) := by
    intro tb fr es hl hub he
    refine ⟨⟨hI'.alive, hI'.slotLive, hI'.slotInj, hI'.jobCtx, hI'.jobThread, hI'.jobProc, hI'.one, hI'.gone, hI'.absent,
      fun i c h => Nat.le_trans (hI'.size i c h) hl, fun t th j k l h1 h2 h3 => Nat.le_trans (hI'.sizeJob t th j k l h1 h2 h3) hl, hI'.key, hI'.ntf,
      fun h => absurd (hm'.symm.trans h) nofun⟩,
      hub, fun x => ?_⟩
    have e := (inited_same (s := s)).2.2.2.2.2.2 x
    obtain ⟨e1, e2, e3⟩ := he x
    simp only [held] at *
    omega
  have e : newKey s t b = (match (inited s).freed with
      | k :: ks => some ({ inited s with freed := ks, table := (inited s).table.set k b }, [.key t k b])
      | [] => some ({ inited s with table := (inited s).table ++ [b] }, [.key t (inited s).table.length b])) := by
    unfold newKey
    exact if_pos hm'
  rw [e]
  cases hf : (inited s).freed with
  | nil =>
    exact ⟨_, rfl, key ((inited s).table ++ [b]) (inited s).freed [.key t (inited s).table.length b] (by simp) (fun u h => by simp at h) fun x => ⟨rfl, rfl, rfl⟩⟩
  | cons k ks => exact ⟨_, rfl, key ((inited s).table.set k b) ks [.key t k b] (by simp) (fun u h => by simp at h) fun x => ⟨rfl, rfl, rfl⟩⟩

theorem good_threadExit {tls : Bool} {s : St} (hI : Inv s) {t : Nat} {th : Thread} (ht : s.threads[t]? = some th) (hj : th.job = none)
    (hok : s.mgr = .live ∨ s.mgr = .absent ∨ noCtx tls s t = true) : ∃ r, threadExit tls s t th = some r ∧ Good s r := by
  have hI' := inv_inited hI
  obtain ⟨i1, i2, i3, i4, i5, i6, i7⟩ := inited_same (s := s)
  have ht' : (inited s).threads[t]? = some th := by rw [i2]; exact ht
  have hn : noCtx tls (inited s) t = noCtx tls s t := by unfold noCtx; rw [i2, i5]
  have e : threadExit tls s t th = (match ctxPtr tls (inited s) th with
      | none => some (inited s, [.threadExited t])
      | some i =>
        if (inited s).mgr = .live then
          some ({ inited s with threads := (inited s).threads.set t { th with job := some ⟨i, .atExit [], false, false⟩ } }, [])
        else undef (inited s) t) := rfl
  rw [e]
  rcases ptr_cases (tls := tls) ht' with ⟨h1, h2, h3⟩ | ⟨i, h1, h2, h3, h4⟩
  · rw [h1]
    exact ⟨_, rfl, good_of_inited (good_same hI' (fun u h => by simp at h) fun x => ⟨rfl, rfl, rfl⟩)⟩
  · rw [h1]
    have hm : (inited s).mgr = .live := by
      rcases hok with h | h | h
      · unfold inited; rw [if_neg (by rw [h]; nofun)]; exact h
      · unfold inited; rw [if_pos h]
      · rw [← hn, h3] at h; cases h
    simp only [if_pos hm]
    refine ⟨_, rfl, good_of_inited ⟨?_, fun u => nofun, fun x => ?_⟩⟩
    · have key : ∀ (u : Nat) (v : Thread), ((inited s).threads.set t { th with job := some ⟨i, .atExit [], false, false⟩ })[u]? = some v →
          (u ≠ t ∧ (inited s).threads[u]? = some v) ∨ (u = t ∧ v = { th with job := some ⟨i, .atExit [], false, false⟩ }) := fun u v hv => by
        rcases get_set_cases hv with ⟨h1, h2⟩ | ⟨h1, h2⟩
        · exact .inr ⟨h1.symm, h2⟩
        · exact .inl ⟨Ne.symm h1, h2⟩
      have hsl : ∀ (u : Nat) (v : Thread), ((inited s).threads.set t { th with job := some ⟨i, .atExit [], false, false⟩ })[u]? = some v →
          ∃ w, (inited s).threads[u]? = some w ∧ v.slot = w.slot := fun u v hv => by
        rcases key u v hv with ⟨_, h⟩ | ⟨h, h'⟩
        · exact ⟨v, h, rfl⟩
        · subst h; subst h'; exact ⟨th, ht', rfl⟩
      refine ⟨hI'.alive, ?_, ?_, ?_, ?_, ?_, ?_, hI'.gone, ?_, hI'.size, ?_, hI'.key, ?_, hI'.tab⟩
      · intro hm u v k hu hv
        obtain ⟨w, h5, h6⟩ := hsl u v hu
        exact hI'.slotLive hm u w k h5 (h6 ▸ hv)
      · intro u u' v v' k hu hu' hv hv'
        obtain ⟨w, h5, h6⟩ := hsl u v hu
        obtain ⟨w', h5', h6'⟩ := hsl u' v' hu'
        exact hI'.slotInj u u' w w' k h5 h5' (h6 ▸ hv) (h6' ▸ hv')
      · intro u v j hu hv
        rcases key u v hu with ⟨_, h⟩ | ⟨_, h⟩
        · exact hI'.jobCtx u v j h hv
        · subst h; cases hv; exact hI'.slotLive hm t th i ht' h2
      · intro u v j hu hv hp
        rcases key u v hu with ⟨_, h⟩ | ⟨_, h⟩
        · exact hI'.jobThread u v j h hv hp
        · subst h; cases hv; exact ⟨hm, h2⟩
      · intro u v j hu hv hp
        rcases key u v hu with ⟨_, h⟩ | ⟨_, h⟩
        · exact hI'.jobProc u v j h hv hp
        · subst h; cases hv; cases hp
      · intro h; exact absurd (hm.symm.trans h) nofun
      · intro h; exact absurd (hm.symm.trans h) nofun
      · intro u v j k l hu hv hl
        rcases key u v hu with ⟨_, h⟩ | ⟨_, h⟩
        · exact hI'.sizeJob u v j k l h hv hl
        · subst h; cases hv; cases hl
      · intro u v j l hu hv hl
        rcases key u v hu with ⟨_, h⟩ | ⟨_, h⟩
        · exact hI'.ntf u v j l h hv hl
        · subst h; cases hv; cases hl
    · have e1 := held_thread ht' { th with job := some ⟨i, .atExit [], false, false⟩ } x
      simp only [hj, Option.map_none, Option.getD_none, List.count_nil, Option.map_some, Option.getD_some, Phase.items, List.map_nil] at e1
      simp only [settled, given, lostIn, List.countP_nil]
      omega

theorem quiet_iff {s : St} : quiet s = true ↔ ∀ (t : Nat) (th : Thread), s.threads[t]? = some th → th.job = none := by
  unfold quiet
  rw [List.all_eq_true]
  constructor
  · intro h t th ht
    simpa using h th (List.mem_of_getElem? ht)
  · intro h th hm
    obtain ⟨t, ht⟩ := List.getElem?_of_mem hm
    simp [h t th ht]

theorem good_processExit {s : St} (hI : Inv s) {t : Nat} {th : Thread} (ht : s.threads[t]? = some th) (hj : th.job = none)
    (hok : (s.mgr = .live ∨ s.mgr = .absent) → quiet s = true) (hd : s.mgr ≠ .dying) : ∃ r, processExit s t th = some r ∧ Good s r := by
  unfold processExit
  split
  · next hm =>
    have hq := quiet_iff.mp (hok (.inl hm))
    have hk : s.keyFreed = false := by
      cases hk : s.keyFreed with
      | false => rfl
      | true => exact absurd (hm.symm.trans (hI.key hk)) nofun
    obtain ⟨h1, h2, h3, h4⟩ := good_procLoop (s := { s with mgr := .dying }) ht rfl hI.alive hk hI.slotInj
      (fun u v hu hv => absurd (hq u v hu) hv) hI.size
    refine ⟨_, rfl, h1, h2, fun x => ?_⟩
    have e1 := h3 x
    obtain ⟨e2, e3, e4⟩ := h4 x
    have e5 : held x { s with mgr := .dying } = held x s := rfl
    simp only [hj, Option.map_none, Option.getD_none, List.count_nil] at e1
    omega
  · next hm =>
    split
    · exact ⟨_, rfl, good_same hI (fun u h => by simp at h) fun x => ⟨rfl, rfl, rfl⟩⟩
    · next ha =>
      have hg : s.mgr = .gone := by
        cases h : s.mgr with
        | absent => exact absurd h ha
        | live => exact absurd h hm
        | dying => exact absurd h hd
        | gone => rfl
      have e : ({ s with keyFreed := true } : St) = s := by
        have := (hI.gone hg).1
        cases s
        simp only at this
        subst this
        rfl
      rw [e]
      exact ⟨_, rfl, good_same hI (fun u h => by simp at h) fun x => ⟨rfl, rfl, rfl⟩⟩

theorem userCode_hook {th : Thread} (h : th.job = none) : userCode th = true := by unfold userCode; rw [h]

/-- A safe step is good, and it is possible whenever the step is. -/
theorem good_step {tls : Bool} {s : St} (hI : Inv s) {t : Nat} {op : Op} (hs : safe tls s t op = true) {r : St × List Ev}
    (h : step tls s (t, op) = some r) : Good s r := by
  unfold step at h
  simp only at h
  split at h
  · cases h
  · next th ht =>
    rw [if_neg (by rw [hI.alive]; nofun)] at h
    have hmgr : (s.mgr = .live ∨ s.mgr = .absent) ∨ lateOk tls s t op = true := by
      unfold safe at hs
      cases hm : s.mgr with
      | absent => exact .inl (.inr rfl)
      | live => exact .inl (.inl rfl)
      | dying => rw [hm] at hs; simp only [Bool.and_eq_true] at hs; exact .inr hs.2
      | gone => rw [hm] at hs; exact .inr hs
    have hhook : s.mgr = .dying → inHook s t = true := fun hm => by
      unfold safe at hs
      rw [hm] at hs
      simp only [Bool.and_eq_true] at hs
      exact hs.1
    have use : ∀ {o : Option (St × List Ev)}, o = some r → (∃ r', o = some r' ∧ Good s r') → Good s r := by
      rintro o rfl ⟨r', h1, h2⟩
      cases h1; exact h2
    have add : userCode th = true → ∀ {f : Ctx → Ctx} {e : Ev}, ((s.mgr = .live ∨ s.mgr = .absent) ∨ hasCtx tls s t = true) →
        (∀ c, (f c).storage = c.storage) → (∀ u, Ev.ub u ≠ e) →
        (∀ c x, (f c).items.count x + settled x [e] + lostIn x [e] = c.items.count x + given x [e]) →
        ∃ r, update tls (inited s) t th f [e] = some r ∧ Good s r := by
      intro hu f e hok hst hub hb
      obtain ⟨i1, i2, i3, i4, i5, i6, i7⟩ := inited_same (s := s)
      have ht' : (inited s).threads[t]? = some th := by rw [i2]; exact ht
      have hh : hasCtx tls (inited s) t = hasCtx tls s t := by unfold hasCtx; rw [i2, i5, i1]
      have hi : inHook (inited s) t = inHook s t := by unfold inHook; rw [i2]
      have hd : (inited s).mgr = .dying → inHook (inited s) t = true := fun hm => by
        rw [hi]
        unfold inited at hm
        split at hm
        · cases hm
        · exact hhook hm
      have hok' : ((inited s).mgr = .live ∧ noCtx tls (inited s) t = true) ∨ hasCtx tls (inited s) t = true := by
        rcases hok with hm | hc
        · have hl : (inited s).mgr = .live := by
            unfold inited
            split
            · rfl
            · next hn => rcases hm with hm | hm; exact hm; exact absurd hm hn
          rcases early (tls := tls) (inv_inited hI) ht' (.inl hl) with h | h
          · exact .inl ⟨hl, h⟩
          · exact .inr h
        · exact .inr (by rw [hh]; exact hc)
      obtain ⟨r, h1, h2⟩ := good_update (inv_inited hI) ht' hu hd hok' (f := f) (es := [e]) (fun c hc => by rw [hst]; exact hc)
        (fun u h => hub u (List.mem_singleton.mp h)) fun c _ x => hb c x
      exact ⟨r, h1, good_of_inited h2⟩
    cases op with
    | next =>
      simp only at h
      split at h
      · cases h
      · next j hj => exact use h (good_next hI ht hj)
    | threadExit =>
      simp only at h
      split at h
      · next hj =>
        refine use h (good_threadExit hI ht hj ?_)
        rcases hmgr with (h | h) | h
        · exact .inl h
        · exact .inr (.inl h)
        · exact .inr (.inr h)
      · cases h
    | processExit =>
      simp only at h
      split at h
      · next hj =>
        refine use h (good_processExit hI ht hj ?_ ?_)
        · intro hm
          unfold safe at hs
          rcases hm with hm | hm <;> rw [hm] at hs <;> simpa using hs
        · intro hm
          have := hhook hm
          unfold inHook at this
          rw [ht] at this
          simp [hj] at this
      · cases h
    | newKey b =>
      simp only at h
      split at h
      · refine use h (good_newKey hI ?_)
        rcases hmgr with h | h
        · exact h
        · cases h
      · cases h
    | deleteKey k =>
      simp only [Bool.and_eq_true] at h
      split at h
      · next hc =>
        refine use h (good_deleteKey hI ?_)
        rcases hmgr with (h | h) | h
        · exact h
        · exfalso
          have := hc.2
          unfold liveKey at this
          rw [hI.tab h] at this
          simp at this
        · cases h
      · cases h
    | get k =>
      simp only [Bool.and_eq_true] at h
      split at h
      · next hc =>
        have hz : ∀ v, Good s (s, [.got t k v]) := fun v => good_same hI (fun u h => by simp at h) fun x => ⟨rfl, rfl, rfl⟩
        have hcx : noCtx tls s t = true ∨ hasCtx tls s t = true := by
          rcases hmgr with hm | hl
          · exact early hI ht hm
          · simpa [lateOk] using hl
        rcases ptr_cases (tls := tls) ht with ⟨h1, h2, h3⟩ | ⟨i, h1, h2, h3, h4⟩
        · rw [h1] at h; simp only [Option.some.injEq] at h; subst h; exact hz none
        · rw [h1] at h
          rw [h3] at hcx
          obtain ⟨c, hc⟩ := h4.mp (by simpa using hcx)
          simp only [hc, Option.some.injEq] at h
          subst h
          exact hz _
      · cases h
    | reset k v =>
      simp only [Bool.and_eq_true] at h
      split at h
      · next hc =>
        have hk : k < s.table.length := by
          have := hc.2
          unfold liveKey at this
          simp only [Bool.and_eq_true, decide_eq_true_eq] at this
          exact this.1
        refine use h (good_reset hI ht hc.1 hhook hk ?_)
        rcases hmgr with (hm | hm) | hl
        · rcases early (tls := tls) hI ht (.inl hm) with h | h
          · exact .inl ⟨hm, h⟩
          · exact .inr (.inr h)
        · rw [hI.tab hm] at hk; simp at hk
        · simp only [lateOk, Bool.or_eq_true, Bool.and_eq_true, Option.isNone_iff_eq_none] at hl
          rcases hl with hl | hl
          · exact .inr (.inl hl)
          · exact .inr (.inr hl)
      · cases h
    | atThreadExit i =>
      simp only at h
      split at h
      · next hc =>
        refine use h (add hc (f := fun c => { c with atExit := c.atExit ++ [i] }) (e := .gave t (.cb i)) (hmgr.imp id id) (fun c => rfl) (fun u h => by cases h) fun c x => ?_)
        simp only [Ctx.items, List.map_append, List.count_append, List.map_cons, List.map_nil, List.count_cons, List.count_nil, settled, given, lostIn,
          List.countP_cons, List.countP_nil, isSettled, isGave, isLost]
        by_cases h : Item.cb i = x
        · subst h; simp; omega
        · simp [h]
      · cases h
    | notifyAtExit m =>
      simp only at h
      split at h
      · next hc =>
        refine use h (add hc (f := fun c => { c with notify := c.notify ++ [m] }) (e := .gave t (.ntf m)) (hmgr.imp id id) (fun c => rfl) (fun u h => by cases h) fun c x => ?_)
        simp only [Ctx.items, List.map_append, List.count_append, List.map_cons, List.map_nil, List.count_cons, List.count_nil, settled, given, lostIn,
          List.countP_cons, List.countP_nil, isSettled, isGave, isLost]
        by_cases h : Item.ntf m = x
        · subst h; simp; omega
        · simp [h]
      · cases h

theorem stepS_eq {tls : Bool} {s : St} {l : Nat × Op} {r : St × List Ev} (h : stepS tls s l = some r) :
    safe tls s l.1 l.2 = true ∧ step tls s l = some r := by
  unfold stepS at h
  split at h
  · next hs => exact ⟨hs, h⟩
  · cases h

theorem stepQ_eq {tls : Bool} {s : St} {l : Nat × Op} {r : St × List Ev} (h : stepQ tls s l = some r) :
    stepS tls s l = some r ∧ ∀ i, l.2 = .atThreadExit i → inCleanup s l.1 = false := by
  unfold stepQ at h
  split at h
  · next i e =>
    split at h
    · cases h
    · next hc => exact ⟨h, fun i' _ => by simpa using hc⟩
  · next hn => exact ⟨h, fun i e => absurd e (hn i)⟩

theorem inv_exec {tls : Bool} {n : Nat} {tr : List Ev} {s : St} (h : Exec (stepS tls) (init n) tr s) :
    Inv s ∧ (∀ t, Ev.ub t ∉ tr) ∧ ∀ x, given x tr = settled x tr + lostIn x tr + held x s := by
  refine h.invariant (fun tr s => Inv s ∧ (∀ t, Ev.ub t ∉ tr) ∧ ∀ x, given x tr = settled x tr + lostIn x tr + held x s) ?_ ?_
  · refine ⟨inv_init n, fun t => nofun, fun x => ?_⟩
    have h1 : ((init n).threads.map fun th => ((th.job.map (·.ph.items)).getD []).count x).sum = 0 := by
      simp [init, List.sum_replicate_nat]
    simp only [held, h1]
    rfl
  · rintro tr s ⟨t, op⟩ s' es ⟨hI, hu, hb⟩ hs
    obtain ⟨h1, h2⟩ := stepS_eq hs
    obtain ⟨g1, g2, g3⟩ := good_step hI h1 h2
    refine ⟨g1, fun u hm => ?_, fun x => ?_⟩
    · rcases List.mem_append.mp hm with h | h
      · exact hu u h
      · exact g2 u h
    · have e1 := hb x
      have e2 := g3 x
      simp only [settled, given, lostIn, List.countP_append] at *
      omega

theorem execS_of_execQ {tls : Bool} {n : Nat} {tr : List Ev} {s : St} (h : Exec (stepQ tls) (init n) tr s) : Exec (stepS tls) (init n) tr s := by
  induction h with
  | init => exact .init
  | snoc _ hs ih => exact ih.snoc (stepQ_eq hs).1

theorem sum_zero {l : List Nat} (h : ∀ a ∈ l, a = 0) : l.sum = 0 := by
  induction l with
  | nil => rfl
  | cons a l ih => rw [List.sum_cons, h a List.mem_cons_self, ih fun b hb => h b (List.mem_cons_of_mem _ hb)]

theorem held_none {s : St} (hI : Inv s) (hex : ∀ i, ¬ Exists s i) (x : Item) : held x s = 0 := by
  unfold held
  have h1 : ∀ o ∈ s.heap, o = none := fun o ho => by
    obtain ⟨i, hi⟩ := List.getElem?_of_mem ho
    cases o with
    | none => rfl
    | some c => exact absurd ⟨c, hi⟩ (hex i)
  have h2 : ∀ th ∈ s.threads, th.job = none := fun th hth => by
    obtain ⟨t, ht⟩ := List.getElem?_of_mem hth
    cases hj : th.job with
    | none => rfl
    | some j => exact absurd (hI.jobCtx t th j ht hj) (hex _)
  have e1 : (s.heap.map fun o => ((o.map Ctx.items).getD []).count x).sum = 0 := by
    refine sum_zero fun a ha => ?_
    obtain ⟨o, ho, rfl⟩ := List.mem_map.mp ha
    rw [h1 o ho]; rfl
  have e2 : (s.threads.map fun th => ((th.job.map (·.ph.items)).getD []).count x).sum = 0 := by
    refine sum_zero fun a ha => ?_
    obtain ⟨th, hth, rfl⟩ := List.mem_map.mp ha
    simp only [h2 th hth]; rfl
  rw [e1, e2]

theorem procLoop_exited {s : St} {t u : Nat} {th : Thread} (h : Ev.processExited u ∈ (procLoop s t th).2) : (procLoop s t th).1.mgr = .gone := by
  unfold procLoop at h ⊢
  split
  · next hf => rw [hf] at h; cases h
  · rfl

/-- When `on_process_exit` returns there are no contexts. -/
theorem exited_none {tls : Bool} {s s' : St} (hI : Inv s) {t u : Nat} {op : Op} {es : List Ev} (hs : safe tls s t op = true)
    (h : step tls s (t, op) = some (s', es)) (he : Ev.processExited u ∈ es) : ∀ i, ¬ Exists s' i := by
  have hG := good_step hI hs h
  have done : s'.mgr = .gone → ∀ i, ¬ Exists s' i := fun hm => (hG.inv.gone hm).2
  have clean : ∀ (k : Nat) (b : Bool) (v : Nat), Ev.processExited u ≠ dispose t k b v := fun k b v => by cases b <;> nofun
  unfold step at h
  simp only at h
  split at h
  · cases h
  · next th ht =>
    rw [if_neg (by rw [hI.alive]; nofun)] at h
    have upd : ∀ {s₁ : St} {f : Ctx → Ctx} {e : List Ev}, (Ev.processExited u ∉ e) → update tls s₁ t th f e = some (s', es) → False := by
      intro s₁ f e hn hup
      unfold update undef at hup
      repeat' split at hup
      all_goals
        simp only [Option.some.injEq, Prod.mk.injEq] at hup
        obtain ⟨-, rfl⟩ := hup
        first | exact hn he | simp at he
    cases op with
    | next =>
      simp only at h
      split at h
      · cases h
      · next j hj =>
        unfold next undef at h
        simp only at h
        repeat' split at h
        all_goals simp only [Option.some.injEq, Prod.mk.injEq] at h
        all_goals try (obtain ⟨-, rfl⟩ := h; exfalso; first | (simp at he; done) | exact clean _ _ _ (List.mem_singleton.mp he))
        have e : finish s t th j _ = (s', es) := h
        unfold finish at e
        simp only [Prod.mk.injEq] at e
        obtain ⟨rfl, rfl⟩ := e
        rcases List.mem_append.mp he with he | he
        · obtain ⟨_, _, e⟩ := List.mem_map.mp he; cases e
        · split at he
          · next hp =>
            refine done ?_
            rw [if_pos hp]
            exact procLoop_exited he
          · simp at he
    | threadExit =>
      simp only at h
      split at h
      · unfold threadExit undef at h
        simp only at h
        repeat' split at h
        all_goals
          simp only [Option.some.injEq, Prod.mk.injEq] at h
          obtain ⟨-, rfl⟩ := h
          simp at he
      · cases h
    | processExit =>
      simp only at h
      split at h
      · unfold processExit at h
        split at h
        · simp only [Option.some.injEq] at h
          have e1 : (procLoop { s with mgr := .dying } t th).1 = s' := by rw [h]
          have e2 : (procLoop { s with mgr := .dying } t th).2 = es := by rw [h]
          exact done (e1 ▸ procLoop_exited (e2 ▸ he))
        · split at h
          · next hm =>
            simp only [Option.some.injEq, Prod.mk.injEq] at h
            obtain ⟨rfl, rfl⟩ := h
            rintro i ⟨c, hc⟩
            rw [(hI.absent hm).1] at hc
            cases hc
          · next hm hm' =>
            simp only [Option.some.injEq, Prod.mk.injEq] at h
            obtain ⟨rfl, rfl⟩ := h
            exact done (hG.inv.key rfl)
      · cases h
    | newKey b =>
      simp only at h
      split at h
      · unfold newKey undef at h
        simp only at h
        repeat' split at h
        all_goals
          simp only [Option.some.injEq, Prod.mk.injEq] at h
          obtain ⟨-, rfl⟩ := h
          simp at he
      · cases h
    | deleteKey k =>
      simp only at h
      split at h
      · unfold deleteKey undef at h
        split at h
        all_goals
          simp only [Option.some.injEq, Prod.mk.injEq] at h
          obtain ⟨-, rfl⟩ := h
        · rcases List.mem_cons.mp he with he | he
          · cases he
          obtain ⟨v, _, e⟩ := List.mem_map.mp he
          exact absurd e.symm (clean _ _ _)
        · simp at he
      · cases h
    | get k =>
      simp only at h
      unfold undef at h
      repeat' split at h
      all_goals try (cases h; done)
      all_goals
        simp only [Option.some.injEq, Prod.mk.injEq] at h
        obtain ⟨-, rfl⟩ := h
        simp at he
    | reset k v =>
      simp only at h
      split at h
      · have hn : ∀ old : Option Nat, Ev.processExited u ∉ ((v.map fun v => Ev.gave t (.val k v)).toList ++
            (old.map (dispose t k (s.table[k]? = some true))).toList) := by
          intro old hm
          rcases List.mem_append.mp hm with hm | hm
          · cases v <;> simp at hm
          · cases old with
            | none => simp at hm
            | some a => exact clean _ _ _ (List.mem_singleton.mp hm)
        unfold reset undef at h
        simp only at h
        repeat' split at h
        all_goals try (exact absurd h (fun h => upd (hn _) h))
        all_goals
          simp only [Option.some.injEq, Prod.mk.injEq] at h
          obtain ⟨-, rfl⟩ := h
          simp at he
      · cases h
    | atThreadExit i =>
      simp only at h
      split at h
      · exact absurd h (fun h => upd (by simp) h)
      · cases h
    | notifyAtExit m =>
      simp only at h
      split at h
      · exact absurd h (fun h => upd (by simp) h)
      · cases h

end Verif.TssProcess
