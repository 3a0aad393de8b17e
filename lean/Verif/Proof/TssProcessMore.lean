import Verif.Proof.TssProcess

namespace Verif.TssProcess

/-- A call that is not allowed once the process is exiting is undefined. -/
theorem late_ub {tls : Bool} {s s' : St} (hI : Inv s) {t : Nat} {op : Op} {es : List Ev} (hm : s.mgr = .dying ∨ s.mgr = .gone)
    (hl : lateOk tls s t op = false) (h : step tls s (t, op) = some (s', es)) : es = [.ub t] ∧ s'.dead = true := by
  have hnl : s.mgr ≠ .live := by rcases hm with hm | hm <;> rw [hm] <;> nofun
  have hna : s.mgr ≠ .absent := by rcases hm with hm | hm <;> rw [hm] <;> nofun
  have hu : ∀ {r : St × List Ev}, undef s t = some r → r.2 = [.ub t] ∧ r.1.dead = true := by
    intro r hr
    unfold undef at hr
    cases hr
    exact ⟨rfl, rfl⟩
  unfold step at h
  simp only at h
  split at h
  · cases h
  · next th ht =>
    rw [if_neg (by rw [hI.alive]; nofun)] at h
    have upd : ∀ {f : Ctx → Ctx} {e : List Ev}, hasCtx tls s t = false → update tls s t th f e = some (s', es) → es = [.ub t] ∧ s'.dead = true := by
      intro f e hh hup
      unfold update at hup
      rcases ptr_cases (tls := tls) ht with ⟨h1, h2, h3⟩ | ⟨i, h1, h2, h3, h4⟩
      · rw [h1] at hup
        simp only [if_neg hnl] at hup
        exact hu hup
      · rw [h1] at hup
        have hne : ¬ ∃ c, s.heap[i]? = some (some c) := fun e => by rw [h4.mpr e] at hh; cases hh
        simp only at hup
        split at hup
        · next c hc => exact absurd ⟨c, hc⟩ hne
        · exact hu hup
    cases op with
    | next => cases hl
    | processExit => cases hl
    | threadExit =>
      simp only at h
      split at h
      · unfold threadExit at h
        rw [if_neg hna] at h
        simp only at h
        rcases ptr_cases (tls := tls) ht with ⟨h1, h2, h3⟩ | ⟨i, h1, h2, h3, h4⟩
        · simp [lateOk, h2] at hl
        · rw [h1] at h
          simp only [if_neg hnl] at h
          exact hu h
      · cases h
    | newKey b =>
      simp only at h
      split at h
      · unfold newKey at h
        rw [if_neg hna] at h
        simp only [if_neg hnl] at h
        exact hu h
      · cases h
    | deleteKey k =>
      simp only at h
      split at h
      · unfold deleteKey at h
        rw [if_neg hnl] at h
        exact hu h
      · cases h
    | get k =>
      simp only at h
      split at h
      · simp only [lateOk, Bool.or_eq_false_iff] at hl
        rcases ptr_cases (tls := tls) ht with ⟨h1, h2, h3⟩ | ⟨i, h1, h2, h3, h4⟩
        · rw [h2] at hl; cases hl.1
        · rw [h1] at h
          have hne : ¬ ∃ c, s.heap[i]? = some (some c) := fun e => by rw [h4.mpr e] at hl; cases hl.2
          simp only at h
          split at h
          · next c hc => exact absurd ⟨c, hc⟩ hne
          · exact hu h
      · cases h
    | reset k v =>
      simp only at h
      split at h
      · simp only [lateOk, Bool.or_eq_false_iff] at hl
        unfold reset at h
        rcases ptr_cases (tls := tls) ht with ⟨h1, h2, h3⟩ | ⟨i, h1, h2, h3, h4⟩
        · rw [h1] at h
          simp only at h
          split at h
          · next e => rw [h2, ← e] at hl; cases hl.1
          · exact upd h3 h
        · rw [h1] at h
          have hne : ¬ ∃ c, s.heap[i]? = some (some c) := fun e => by rw [h4.mpr e] at hl; cases hl.2
          simp only at h
          split at h
          · next c hc => exact absurd ⟨c, hc⟩ hne
          · exact hu h
      · cases h
    | atThreadExit i =>
      simp only at h
      split at h
      · exact upd hl h
      · cases h
    | notifyAtExit m =>
      simp only at h
      split at h
      · exact upd hl h
      · cases h

/-! ### Callbacks are not lost -/

/-- Once the callbacks of a context that is being destroyed have been called, there are no more. -/
def Called (s : St) : Prop :=
  ∀ (t : Nat) (th : Thread) (j : Job), s.threads[t]? = some th → th.job = some j → (∀ l, j.ph ≠ .atExit l) →
    ∀ c, s.heap[j.ctx]? = some (some c) → c.atExit = []

/-- A step that leaves the hooks where they are and adds no callbacks to a context of which the callbacks have been called. -/
theorem called_heap {s s' : St} (hC : Called s)
    (hjob : ∀ (u : Nat) (v : Thread) (j : Job), s'.threads[u]? = some v → v.job = some j → ∃ w, s.threads[u]? = some w ∧ w.job = some j)
    (hh : ∀ (u : Nat) (v : Thread) (j : Job), s.threads[u]? = some v → v.job = some j → (∀ l, j.ph ≠ .atExit l) →
      ∀ c', s'.heap[j.ctx]? = some (some c') → ∃ c, s.heap[j.ctx]? = some (some c) ∧ c'.atExit = c.atExit) : Called s' := by
  intro u v j hu hv hp c' hc'
  obtain ⟨w, h1, h2⟩ := hjob u v j hu hv
  obtain ⟨c, h3, h4⟩ := hh u w j h1 h2 hp c' hc'
  rw [h4]
  exact hC u w j h1 h2 hp c h3

theorem called_update {tls : Bool} {s s₁ : St} (hI : Inv s) (hC : Called s) {t : Nat} {th : Thread} (ht : s.threads[t]? = some th)
    (e1 : s₁.heap = s.heap) (e2 : s₁.threads = s.threads)
    {f : Ctx → Ctx} {es : List Ev} {r : St × List Ev}
    (hf : (∀ c, (f c).atExit = c.atExit) ∨ ∀ (u : Nat) (v : Thread) (j : Job), s.threads[u]? = some v → v.job = some j → (∀ l, j.ph ≠ .atExit l) →
      ctxPtr tls s₁ th = some j.ctx → False)
    (h : update tls s₁ t th f es = some r) : Called r.1 ∧ ∀ u i, Ev.lost u i ∈ r.2 → Ev.lost u i ∈ es := by
  have hC₁ : Called s₁ := by unfold Called at hC ⊢; rw [e1, e2]; exact hC
  unfold update at h
  split at h
  · next i hi =>
    split at h
    · next c hc =>
      cases h
      refine ⟨called_heap hC₁ (fun u v j hu hv => ⟨v, hu, hv⟩) fun u v j hu hv hp c' hc' => ?_, fun _ _ => id⟩
      rcases get_set_cases hc' with ⟨h1, h2⟩ | ⟨_, h2⟩
      · cases h2
        rcases hf with hf | hf
        · exact ⟨c, h1 ▸ hc, hf c⟩
        · exact (hf u v j (e2 ▸ hu) hv hp (h1 ▸ hi)).elim
      · exact ⟨c', h2, rfl⟩
    · unfold undef at h; cases h; exact ⟨hC₁, fun u i hm => by simp at hm⟩
  · split at h
    · cases h
      refine ⟨called_heap hC₁ (fun u v j hu hv => ?_) fun u v j hu hv hp c' hc' => ?_, fun _ _ => id⟩
      · rcases get_set_cases hu with ⟨h1, h2⟩ | ⟨_, h2⟩
        · subst h1; subst h2; exact ⟨th, e2 ▸ ht, hv⟩
        · exact ⟨v, h2, hv⟩
      · obtain ⟨c, hc⟩ := hI.jobCtx u v j (e2 ▸ hu) hv
        have hlt : j.ctx < s₁.heap.length := by rw [e1]; exact (List.getElem?_eq_some_iff.mp hc).1
        simp only [List.getElem?_append_left hlt] at hc'
        exact ⟨c', hc', rfl⟩
    · unfold undef at h; cases h; exact ⟨hC₁, fun u i hm => by simp at hm⟩

theorem called_step {tls : Bool} {s s' : St} (hI : Inv s) (hC : Called s) {l : Nat × Op} {es : List Ev} (h : stepQ tls s l = some (s', es)) :
    Called s' ∧ ∀ u i, Ev.lost u i ∉ es := by
  obtain ⟨hS, hQ⟩ := stepQ_eq h
  obtain ⟨hsafe, hstep⟩ := stepS_eq hS
  have hG := good_step hI hsafe hstep
  obtain ⟨t, op⟩ := l
  simp only at hQ hsafe
  have clean : ∀ (k : Nat) (b : Bool) (v u i : Nat), Ev.lost u i ≠ dispose t k b v := fun k b v u i => by cases b <;> nofun
  unfold step at hstep
  simp only at hstep
  split at hstep
  · cases hstep
  · next th ht =>
    rw [if_neg (by rw [hI.alive]; nofun)] at hstep
    have und : ∀ {s₁ : St}, s₁.heap = s.heap → s₁.threads = s.threads → undef s₁ t = some (s', es) → Called s' ∧ ∀ u i, Ev.lost u i ∉ es := by
      intro s₁ e1 e2 hr
      unfold undef at hr
      cases hr
      refine ⟨by unfold Called at hC ⊢; simp only [e1, e2]; exact hC, fun u i hm => by simp at hm⟩
    have hother : ∀ {u : Nat} {v : Thread} {j j' : Job}, s.threads[u]? = some v → v.job = some j' → th.job = some j → u ≠ t → j'.ctx ≠ j.ctx := by
      intro u v j j' hu hv hj hne e
      exact hne (job_inj hI hu ht hv hj e)
    cases op with
    | next =>
      simp only at hstep
      split at hstep
      · cases hstep
      · next j hj =>
        obtain ⟨c, hc⟩ := hI.jobCtx t th j ht hj
        have move : ∀ {ph : Phase} {cb : Bool} {o : Option Ctx}, (∀ d, o = some d → (∃ l, ph = .atExit l) ∨ d.atExit = []) →
            Called { s with heap := s.heap.set j.ctx o, threads := s.threads.set t { th with job := some { j with ph := ph, cb := cb } } } := by
          intro ph cb o ho u v j' hu hv hp d hd
          rcases get_set_cases hu with ⟨h1, h2⟩ | ⟨h1, h2⟩
          · subst h2; cases hv
            simp only [get_set_self hc, Option.some.injEq] at hd
            rcases ho d hd with ⟨l, e⟩ | e
            · exact absurd e (hp l)
            · exact e
          · simp only [get_set_ne (Ne.symm (hother h2 hv hj (Ne.symm h1)))] at hd
            exact hC u v j' h2 hv hp d hd
        have same : ∀ {ph : Phase} {cb : Bool}, ((∃ l, ph = .atExit l) ∨ c.atExit = []) →
            Called { s with threads := s.threads.set t { th with job := some { j with ph := ph, cb := cb } } } := by
          intro ph cb hp
          have := move (ph := ph) (cb := cb) (o := some c) (fun d hd => by cases hd; exact hp)
          have e : s.heap.set j.ctx (some c) = s.heap := by
            apply List.ext_getElem?
            intro i
            by_cases hi : j.ctx = i
            · subst hi; rw [get_set_self hc, hc]
            · rw [get_set_ne hi]
          rw [e] at this
          exact this
        unfold next at hstep
        simp only [hc] at hstep
        cases hph : j.ph with
        | atExit l =>
          rw [hph] at hstep
          cases l with
          | cons i rest => cases hstep; exact ⟨same (.inl ⟨_, rfl⟩), fun u i hm => by simp at hm⟩
          | nil =>
            simp only at hstep
            split at hstep
            · next he => cases hstep; exact ⟨same (.inr he), fun u i => nofun⟩
            · cases hstep; exact ⟨move fun d hd => by cases hd; exact .inl ⟨_, rfl⟩, fun u i => nofun⟩
        | tls k l =>
          have hcl := hC t th j ht hj (by rw [hph]; nofun) c hc
          rw [hph] at hstep
          cases l with
          | cons o rest =>
            cases o with
            | none => cases hstep; exact ⟨same (.inr hcl), fun u i => nofun⟩
            | some v =>
              simp only at hstep
              split at hstep
              · cases hstep; exact ⟨same (.inr hcl), fun u i hm => clean _ _ _ _ _ (List.mem_singleton.mp hm)⟩
              · exact und rfl rfl hstep
          | nil =>
            simp only at hstep
            split at hstep
            · cases hstep; exact ⟨move fun d hd => by cases hd; exact .inr hcl, fun u i => nofun⟩
            · cases hstep; exact ⟨move fun d hd => by cases hd; exact .inr hcl, fun u i => nofun⟩
        | notify l =>
          have hcl := hC t th j ht hj (by rw [hph]; nofun) c hc
          rw [hph] at hstep
          cases l with
          | cons m rest => cases hstep; exact ⟨same (.inr hcl), fun u i hm => by simp at hm⟩
          | nil =>
            have e : finish s t th j c = (s', es) := by simpa using hstep
            unfold finish at e
            simp only [hcl, List.map_nil, List.nil_append, Prod.mk.injEq] at e
            have rest : ∀ (u : Nat) (v : Thread) (j' : Job), s.threads[u]? = some v → u ≠ t → v.job = some j' → (∀ l, j'.ph ≠ .atExit l) →
                ∀ d, (s.heap.set j.ctx none)[j'.ctx]? = some (some d) → d.atExit = [] := by
              intro u v j' hu hne hv hp d hd
              rw [get_set_ne (Ne.symm (hother hu hv hj hne))] at hd
              exact hC u v j' hu hv hp d hd
            split at e
            · unfold procLoop at e
              simp only at e
              split at e
              · obtain ⟨rfl, rfl⟩ := e
                refine ⟨fun u v j' hu hv hp d hd => ?_, fun u i => nofun⟩
                rcases get_set_cases hu with ⟨h1, h2⟩ | ⟨h1, h2⟩
                · subst h2; cases hv; exact absurd rfl (hp [])
                · exact rest u v j' h2 (Ne.symm h1) hv hp d hd
              · obtain ⟨rfl, rfl⟩ := e
                refine ⟨fun u v j' hu hv hp d hd => ?_, fun u i hm => by simp at hm⟩
                rcases get_set_cases hu with ⟨h1, h2⟩ | ⟨h1, h2⟩
                · subst h2; cases hv
                · exact rest u v j' h2 (Ne.symm h1) hv hp d hd
            · obtain ⟨rfl, rfl⟩ := e
              refine ⟨fun u v j' hu hv hp d hd => ?_, fun u i hm => by simp at hm⟩
              rcases get_set_cases hu with ⟨h1, h2⟩ | ⟨h1, h2⟩
              · subst h2; cases hv
              · exact rest u v j' h2 (Ne.symm h1) hv hp d hd
    | threadExit =>
      simp only at hstep
      split at hstep
      · have e : threadExit tls s t th = (match ctxPtr tls (inited s) th with
            | none => some (inited s, [.threadExited t])
            | some i =>
              if (inited s).mgr = .live then
                some ({ inited s with threads := (inited s).threads.set t { th with job := some ⟨i, .atExit [], false, false⟩ } }, [])
              else undef (inited s) t) := rfl
        rw [e] at hstep
        obtain ⟨i1, i2, _⟩ := inited_same (s := s)
        split at hstep
        · cases hstep
          refine ⟨?_, fun u i hm => by simp at hm⟩
          unfold Called at hC ⊢; rw [i1, i2]; exact hC
        · split at hstep
          · cases hstep
            refine ⟨fun u v j' hu hv hp d hd => ?_, fun u i => nofun⟩
            rcases get_set_cases hu with ⟨h1, h2⟩ | ⟨h1, h2⟩
            · subst h2; cases hv; exact absurd rfl (hp [])
            · exact hC u v j' (i2 ▸ h2) hv hp d (i1 ▸ hd)
          · exact und i1 i2 hstep
      · cases hstep
    | processExit =>
      simp only at hstep
      split at hstep
      · unfold processExit at hstep
        split at hstep
        · unfold procLoop at hstep
          simp only at hstep
          split at hstep
          · cases hstep
            refine ⟨fun u v j' hu hv hp d hd => ?_, fun u i => nofun⟩
            rcases get_set_cases hu with ⟨h1, h2⟩ | ⟨h1, h2⟩
            · subst h2; cases hv; exact absurd rfl (hp [])
            · exact hC u v j' h2 hv hp d hd
          · cases hstep
            refine ⟨fun u v j' hu hv hp d hd => ?_, fun u i hm => by simp at hm⟩
            rcases get_set_cases hu with ⟨h1, h2⟩ | ⟨h1, h2⟩
            · subst h2; cases hv
            · exact hC u v j' h2 hv hp d hd
        · split at hstep
          · cases hstep; exact ⟨hC, fun u i hm => by simp at hm⟩
          · cases hstep; exact ⟨hC, fun u i hm => by simp at hm⟩
      · cases hstep
    | newKey b =>
      simp only at hstep
      split at hstep
      · have e : newKey s t b = (if (inited s).mgr = .live then
            match (inited s).freed with
            | k :: ks => some ({ inited s with freed := ks, table := (inited s).table.set k b }, [.key t k b])
            | [] => some ({ inited s with table := (inited s).table ++ [b] }, [.key t (inited s).table.length b])
          else undef (inited s) t) := rfl
        rw [e] at hstep
        have hC' : ∀ s₁ : St, s₁.heap = s.heap → s₁.threads = s.threads → Called s₁ := fun s₁ e1 e2 => by
          unfold Called at hC ⊢; rw [e1, e2]; exact hC
        obtain ⟨i1, i2, _⟩ := inited_same (s := s)
        split at hstep
        · split at hstep
          · cases hstep; exact ⟨hC' _ i1 i2, fun u i hm => by simp at hm⟩
          · cases hstep; exact ⟨hC' _ i1 i2, fun u i hm => by simp at hm⟩
        · exact und i1 i2 hstep
      · cases hstep
    | deleteKey k =>
      simp only at hstep
      split at hstep
      · unfold deleteKey at hstep
        split at hstep
        · cases hstep
          refine ⟨called_heap hC (fun u v j hu hv => ⟨v, hu, hv⟩) fun u v j hu hv hp c' hc' => ?_, fun u i hm => ?_⟩
          · simp only [List.getElem?_map] at hc'
            obtain ⟨c, hc⟩ := hI.jobCtx u v j hu hv
            rw [hc] at hc'
            simp only [Option.map_some, Option.some.injEq] at hc'
            subst hc'
            exact ⟨c, hc, (clear_storage k c).2.2⟩
          · rcases List.mem_cons.mp hm with hm | hm
            · cases hm
            obtain ⟨v, _, e⟩ := List.mem_map.mp hm
            exact clean _ _ _ _ _ e.symm
        · exact und rfl rfl hstep
      · cases hstep
    | get k =>
      simp only at hstep
      split at hstep
      · split at hstep
        · cases hstep; exact ⟨hC, fun u i hm => by simp at hm⟩
        · split at hstep
          · cases hstep; exact ⟨hC, fun u i hm => by simp at hm⟩
          · exact und rfl rfl hstep
      · cases hstep
    | reset k v =>
      simp only at hstep
      split at hstep
      · have hn : ∀ (old : Option Nat) (u i : Nat), Ev.lost u i ∉ ((v.map fun v => Ev.gave t (.val k v)).toList ++
            (old.map (dispose t k (s.table[k]? = some true))).toList) := by
          intro old u i hm
          rcases List.mem_append.mp hm with hm | hm
          · cases v <;> simp at hm
          · cases old with
            | none => simp at hm
            | some a => exact clean _ _ _ _ _ (List.mem_singleton.mp hm)
        have up : ∀ {old : Option Nat}, update tls s t th (·.put k v) ((v.map fun v => Ev.gave t (.val k v)).toList ++
            (old.map (dispose t k (s.table[k]? = some true))).toList) = some (s', es) → Called s' ∧ ∀ u i, Ev.lost u i ∉ es := by
          intro old hup
          obtain ⟨h1, h2⟩ := called_update (f := (·.put k v)) hI hC ht rfl rfl (.inl fun c => rfl) hup
          exact ⟨h1, fun u i hm => hn old u i (h2 u i hm)⟩
        unfold reset at hstep
        simp only at hstep
        split at hstep
        · split at hstep
          · cases hstep; exact ⟨hC, fun u i => nofun⟩
          · exact up hstep
        · split at hstep
          · split at hstep
            · cases hstep; exact ⟨hC, fun u i => nofun⟩
            · exact up hstep
          · exact und rfl rfl hstep
      · cases hstep
    | atThreadExit i =>
      have hq := hQ i rfl
      simp only at hstep
      split at hstep
      · next huser =>
        obtain ⟨i1, i2, i3, i4, i5, i6, i7⟩ := inited_same (s := s)
        have hstep' : update tls (inited s) t th (fun c => { c with atExit := c.atExit ++ [i] }) [.gave t (.cb i)] = some (s', es) := hstep
        suffices key : ∀ (u : Nat) (v : Thread) (j : Job), s.threads[u]? = some v → v.job = some j → (∀ l, j.ph ≠ .atExit l) →
            ctxPtr tls (inited s) th = some j.ctx → False by
          obtain ⟨h1, h2⟩ := called_update hI hC ht i1 i2 (.inr key) hstep'
          exact ⟨h1, fun u i hm => by have := h2 u i hm; simp at this⟩
        · intro u v j hu hv hp hc
          have hc : th.slot = some j.ctx := by
            unfold ctxPtr at hc
            split at hc
            · cases hc
            · exact hc
          have e : u = t := by
            cases hpr : j.proc with
            | false => exact hI.slotInj u t v th j.ctx hu ht (hI.jobThread u v j hu hv hpr).2 hc
            | true =>
              have hm := hI.jobProc u v j hu hv hpr
              refine hI.one hm u t v th hu ht (by rw [hv]; nofun) ?_
              unfold safe at hsafe
              rw [hm] at hsafe
              simp only [Bool.and_eq_true] at hsafe
              have := hsafe.1
              unfold inHook at this
              rw [ht] at this
              intro hn
              simp [hn] at this
          subst e
          rw [ht] at hu; cases hu
          cases hph : j.ph with
          | atExit l => exact hp l hph
          | tls k l =>
            unfold inCleanup at hq
            obtain ⟨sl, jb⟩ := th
            simp only at hv
            subst hv
            obtain ⟨a, b, c, d⟩ := j
            simp only at hph
            subst hph
            simp [ht] at hq
          | notify l =>
            have := (hI.ntf u th j l ht hv hph).1
            unfold userCode at huser
            simp [hv, this] at huser
      · cases hstep
    | notifyAtExit m =>
      simp only at hstep
      split at hstep
      · obtain ⟨i1, i2, i3, i4, i5, i6, i7⟩ := inited_same (s := s)
        have hstep' : update tls (inited s) t th (fun c => { c with notify := c.notify ++ [m] }) [.gave t (.ntf m)] = some (s', es) := hstep
        obtain ⟨h1, h2⟩ := called_update (f := fun c => { c with notify := c.notify ++ [m] }) hI hC ht i1 i2 (.inl fun c => rfl) hstep'
        exact ⟨h1, fun u i hm => by have := h2 u i hm; simp at this⟩
      · cases hstep

theorem not_lost {tls : Bool} {n : Nat} {tr : List Ev} {s : St} (h : Exec (stepQ tls) (init n) tr s) :
    Called s ∧ ∀ u i, Ev.lost u i ∉ tr := by
  induction h with
  | init =>
    refine ⟨fun u v j hu hv => ?_, fun u i => nofun⟩
    have : v = ⟨none, none⟩ := get_replicate (n := n) (i := u) hu
    subst this; cases hv
  | snoc hx hs ih =>
    obtain ⟨h1, h2⟩ := called_step (inv_exec (execS_of_execQ hx)).1 ih.1 hs
    refine ⟨h1, fun u i hm => ?_⟩
    rcases List.mem_append.mp hm with hm | hm
    · exact ih.2 u i hm
    · exact h2 u i hm

/-! ### The destructor of the manager ends -/

/-- The steps a context still takes. -/
def Ctx.work (c : Ctx) : Nat :=
  (if c.atExit = [] then 0 else c.atExit.length + 1) + (if c.storage = [] then 0 else c.storage.length + 1) + c.notify.length + 4

def Phase.work : Phase → Nat
  | .atExit l => l.length + 3
  | .tls _ l => l.length + 2
  | .notify l => l.length + 1

def heapWork (heap : List (Option Ctx)) : Nat := (heap.map fun o => (o.map Ctx.work).getD 0).sum

theorem heapWork_set {heap : List (Option Ctx)} {i : Nat} {c : Ctx} (h : heap[i]? = some (some c)) (o : Option Ctx) :
    heapWork (heap.set i o) + c.work = heapWork heap + (o.map Ctx.work).getD 0 := sum_set h o

/-- A step of the destructor ends it, or brings it nearer to its end. -/
theorem next_work {s : St} (hI : Inv s) (hm : s.mgr = .dying) {t : Nat} {th : Thread} {j : Job} (ht : s.threads[t]? = some th) (hj : th.job = some j)
    {r : St × List Ev} (h : next s t th j = some r) :
    (r.1.mgr = .gone ∧ Ev.processExited t ∈ r.2) ∨
    (r.1.mgr = .dying ∧ ∃ (th' : Thread) (j' : Job), r.1.threads[t]? = some th' ∧ th'.job = some j' ∧
      heapWork r.1.heap + j'.ph.work < heapWork s.heap + j.ph.work) := by
  obtain ⟨c, hc⟩ := hI.jobCtx t th j ht hj
  have hp : j.proc = true := by
    cases hp : j.proc with
    | true => rfl
    | false => have := (hI.jobThread t th j ht hj hp).1; rw [hm] at this; cases this
  obtain ⟨r', hr', hG⟩ := good_next hI ht hj
  rw [h] at hr'; cases hr'
  unfold next at h
  simp only [hc] at h
  cases hph : j.ph with
  | atExit l =>
    rw [hph] at h
    cases l with
    | cons i rest => cases h; exact .inr ⟨hm, _, _, get_set_self ht, rfl, by simp [Phase.work]⟩
    | nil =>
      simp only at h
      split at h
      · cases h; exact .inr ⟨hm, _, _, get_set_self ht, rfl, by simp [Phase.work]⟩
      · next hne =>
        cases h
        refine .inr ⟨hm, _, _, get_set_self ht, rfl, ?_⟩
        have := heapWork_set hc (some { c with atExit := [] })
        simp only [Option.map_some, Option.getD_some, Ctx.work, if_neg hne, if_true] at this
        simp only [Phase.work, List.length_reverse, List.length_nil]
        omega
  | tls k l =>
    rw [hph] at h
    cases l with
    | cons o rest =>
      cases o with
      | none => cases h; exact .inr ⟨hm, _, _, get_set_self ht, rfl, by simp [Phase.work]⟩
      | some v =>
        simp only at h
        split at h
        · cases h; exact .inr ⟨hm, _, _, get_set_self ht, rfl, by simp [Phase.work]⟩
        · unfold undef at h; cases h; exact absurd (List.mem_singleton.mpr rfl) (hG.ub t)
    | nil =>
      simp only at h
      split at h
      · next he =>
        cases h
        refine .inr ⟨hm, _, _, get_set_self ht, rfl, ?_⟩
        have := heapWork_set hc (some { c with notify := [] })
        simp only [Option.map_some, Option.getD_some, Ctx.work, List.length_nil] at this
        simp only [Phase.work, List.length_nil]
        omega
      · next hne =>
        cases h
        refine .inr ⟨hm, _, _, get_set_self ht, rfl, ?_⟩
        have := heapWork_set hc (some { c with storage := [] })
        simp only [Option.map_some, Option.getD_some, Ctx.work, if_neg hne, if_true] at this
        simp only [Phase.work, List.length_nil]
        omega
  | notify l =>
    rw [hph] at h
    cases l with
    | cons m rest => cases h; exact .inr ⟨hm, _, _, get_set_self ht, rfl, by simp [Phase.work]⟩
    | nil =>
      have e : finish s t th j c = r := by simpa using h
      subst e
      unfold finish procLoop
      simp only [hp, if_true]
      split
      · refine .inr ⟨hm, _, _, get_set_self ht, rfl, ?_⟩
        have := heapWork_set hc none
        simp only [Option.map_none, Option.getD_none, Ctx.work] at this
        simp only [Phase.work, List.length_nil]
        omega
      · exact .inl ⟨rfl, by simp⟩

theorem ends {tls : Bool} (n : Nat) : ∀ {s : St}, Inv s → s.mgr = .dying → ∀ {t : Nat} {th : Thread} {j : Job}, s.threads[t]? = some th → th.job = some j →
    heapWork s.heap + j.ph.work ≤ n →
    ∃ m s' tr, runFrom (stepS tls) s (List.replicate m (t, .next)) = some (s', tr) ∧ s'.mgr = .gone ∧ Ev.processExited t ∈ tr := by
  induction n with
  | zero => intro s _ _ t th j _ _ hw; cases hph : j.ph <;> rw [hph] at hw <;> simp [Phase.work] at hw
  | succ n ih =>
    intro s hI hm t th j ht hj hw
    obtain ⟨r, hr, hG⟩ := good_next hI ht hj
    have hs : stepS tls s (t, .next) = some (r.1, r.2) := by
      have h1 : safe tls s t .next = true := by simp [safe, hm, inHook, ht, hj, lateOk]
      unfold stepS
      rw [if_pos h1]
      unfold step
      simp only [ht, hj]
      rw [if_neg (by rw [hI.alive]; nofun)]
      exact hr
    rcases next_work hI hm ht hj hr with ⟨h1, h2⟩ | ⟨h1, th', j', h2, h3, h4⟩
    · exact ⟨1, r.1, r.2, by simp [runFrom, hs], h1, h2⟩
    · obtain ⟨m, s', tr, h5, h6, h7⟩ := ih hG.inv h1 h2 h3 (by omega)
      exact ⟨m + 1, s', r.2 ++ tr, by simp [List.replicate_succ, runFrom, hs, h5], h6, List.mem_append_right _ h7⟩

/-! ### The cleanup function a value is passed to -/

def keyEv : Ev → Bool
  | .key _ _ _ | .deleted _ _ => true
  | _ => false

theorem cleanupOf_same {k : Nat} {tr es : List Ev} (h : ∀ e ∈ es, keyEv e = false) : cleanupOf k (tr ++ es) = cleanupOf k tr := by
  unfold cleanupOf
  rw [List.foldl_append]
  generalize List.foldl _ false tr = b
  induction es generalizing b with
  | nil => rfl
  | cons e es ih =>
    have h1 := h e List.mem_cons_self
    rw [List.foldl_cons, ih (fun e he => h e (List.mem_cons_of_mem _ he))]
    cases e <;> first | rfl | cases h1

theorem keyEv_dispose (t k : Nat) (b : Bool) (v : Nat) : keyEv (dispose t k b v) = false := by cases b <;> rfl

/-- The table of cleanup functions is what the trace says. -/
structure Tab (tr : List Ev) (s : St) : Prop where
  table : ∀ k, (s.table[k]?).getD false = cleanupOf k tr
  freed : ∀ k ∈ s.freed, k < s.table.length

theorem tab_same {tr es : List Ev} {s s' : St} (h : Tab tr s) (e1 : s'.table = s.table) (e2 : s'.freed = s.freed) (he : ∀ e ∈ es, keyEv e = false) :
    Tab (tr ++ es) s' :=
  ⟨fun k => by rw [e1, cleanupOf_same he]; exact h.table k, by rw [e1, e2]; exact h.freed⟩

/-- What a step does to the table, and what it says of values cleaned up. -/
theorem step_tab {tls : Bool} {s s' : St} {l : Nat × Op} {es : List Ev} (h : step tls s l = some (s', es)) :
    (∀ u k v, (Ev.cleaned u k v ∈ es → s.table[k]? = some true) ∧ (Ev.dropped u k v ∈ es → s.table[k]? ≠ some true)) ∧
    ((s'.table = s.table ∧ s'.freed = s.freed ∧ ∀ e ∈ es, keyEv e = false) ∨
     (∃ k b ks, s.freed = k :: ks ∧ s'.freed = ks ∧ s'.table = s.table.set k b ∧ es = [.key l.1 k b]) ∨
     (∃ b, s.freed = [] ∧ s'.freed = s.freed ∧ s'.table = s.table ++ [b] ∧ es = [.key l.1 s.table.length b]) ∨
     (∃ k es', k < s.table.length ∧ s'.freed = k :: s.freed ∧ s'.table = s.table.set k false ∧ es = .deleted l.1 k :: es' ∧ ∀ e ∈ es', keyEv e = false)) := by
  obtain ⟨t, op⟩ := l
  have disp : ∀ (k : Nat) (b : Bool) (v u k' v' : Nat), (Ev.cleaned u k' v' = dispose t k b v → k' = k ∧ b = true) ∧ (Ev.dropped u k' v' = dispose t k b v → k' = k ∧ b = false) := by
    intro k b v u k' v'
    cases b <;> simp [dispose] <;> intro _ h _ <;> exact h
  have plain : ∀ {s₁ : St} {e₁ : List Ev}, s₁.table = s.table → s₁.freed = s.freed → (∀ e ∈ e₁, keyEv e = false ∧ (∀ u k v, e ≠ .cleaned u k v ∧ e ≠ .dropped u k v)) →
      some (s₁, e₁) = some (s', es) →
      (∀ u k v, (Ev.cleaned u k v ∈ es → s.table[k]? = some true) ∧ (Ev.dropped u k v ∈ es → s.table[k]? ≠ some true)) ∧
      (s'.table = s.table ∧ s'.freed = s.freed ∧ ∀ e ∈ es, keyEv e = false) := by
    intro s₁ e₁ h1 h2 h3 he
    cases he
    exact ⟨fun u k v => ⟨fun hm => absurd rfl ((h3 _ hm).2 u k v).1, fun hm => absurd rfl ((h3 _ hm).2 u k v).2⟩, h1, h2, fun e he => (h3 e he).1⟩
  have und : ∀ {s₁ : St}, s₁.table = s.table → s₁.freed = s.freed → undef s₁ t = some (s', es) →
      (∀ u k v, (Ev.cleaned u k v ∈ es → s.table[k]? = some true) ∧ (Ev.dropped u k v ∈ es → s.table[k]? ≠ some true)) ∧
      (s'.table = s.table ∧ s'.freed = s.freed ∧ ∀ e ∈ es, keyEv e = false) := fun {s₁} h1 h2 he =>
    plain (s₁ := { s₁ with dead := true }) (e₁ := [.ub t]) h1 h2 (by simp [keyEv]) he
  obtain ⟨_, _, i3, i4, _⟩ := inited_same (s := s)
  unfold step at h
  simp only at h
  split at h
  · cases h
  next th ht =>
  split at h
  · cases h
  have upd : ∀ {s₁ : St} {f : Ctx → Ctx} {e : List Ev}, s₁.table = s.table → s₁.freed = s.freed → update tls s₁ t th f e = some (s', es) →
      s'.table = s.table ∧ s'.freed = s.freed ∧ (es = e ∨ es = [.ub t]) := by
    intro s₁ f e h1 h2 hu
    unfold update undef at hu
    repeat' split at hu
    all_goals
      simp only [Option.some.injEq, Prod.mk.injEq] at hu
      obtain ⟨rfl, rfl⟩ := hu
      exact ⟨h1, h2, by simp⟩
  cases op with
  | next =>
    simp only at h
    split at h
    · cases h
    next j hj =>
    unfold next at h
    simp only at h
    split at h
    · split at h
      · exact (plain (by rfl) (by rfl) (by simp [keyEv]) h).imp id Or.inl
      · split at h <;> exact (plain (by rfl) (by rfl) (by simp) h).imp id Or.inl
      · exact (plain (by rfl) (by rfl) (by simp) h).imp id Or.inl
      · next k v rest hph =>
        split at h
        · next b hb =>
          cases h
          refine ⟨fun u k' v' => ⟨fun hm => ?_, fun hm => ?_⟩, .inl ⟨rfl, rfl, fun e he => ?_⟩⟩
          · obtain ⟨rfl, rfl⟩ := (disp k b v u k' v').1 (List.mem_singleton.mp hm); exact hb
          · obtain ⟨rfl, rfl⟩ := (disp k b v u k' v').2 (List.mem_singleton.mp hm); rw [hb]; nofun
          · rw [List.mem_singleton.mp he]; exact keyEv_dispose ..
        · exact (und rfl rfl h).imp id Or.inl
      · split at h <;> exact (plain (by rfl) (by rfl) (by simp) h).imp id Or.inl
      · exact (plain (by rfl) (by rfl) (by simp [keyEv]) h).imp id Or.inl
      · unfold finish procLoop at h
        simp only at h
        refine (plain ?_ ?_ ?_ h).imp id Or.inl
        · split
          · split <;> rfl
          · rfl
        · split
          · split <;> rfl
          · rfl
        · intro e he
          rcases List.mem_append.mp he with he | he
          · obtain ⟨_, _, rfl⟩ := List.mem_map.mp he; simp [keyEv]
          · split at he
            · split at he
              · cases he
              · rw [List.mem_singleton.mp he]; simp [keyEv]
            · rw [List.mem_singleton.mp he]; simp [keyEv]
    · exact (und rfl rfl h).imp id Or.inl
  | threadExit =>
    simp only at h
    split at h
    · have e : threadExit tls s t th = (match ctxPtr tls (inited s) th with
          | none => some (inited s, [.threadExited t])
          | some i =>
            if (inited s).mgr = .live then
              some ({ inited s with threads := (inited s).threads.set t { th with job := some ⟨i, .atExit [], false, false⟩ } }, [])
            else undef (inited s) t) := rfl
      rw [e] at h
      split at h
      · exact (plain i3 i4 (by simp [keyEv]) h).imp id Or.inl
      · split at h
        · refine (plain ?_ ?_ (by simp) h).imp id Or.inl
          · exact i3
          · exact i4
        · exact (und i3 i4 h).imp id Or.inl
    · cases h
  | processExit =>
    simp only at h
    split at h
    · unfold processExit procLoop at h
      split at h
      · simp only at h
        split at h
        · exact (plain (s₁ := { s with mgr := .dying, threads := _ }) rfl rfl (by simp) h).imp id Or.inl
        · exact (plain (s₁ := { s with mgr := .gone, keyFreed := true, threads := _ }) rfl rfl (by simp [keyEv]) h).imp id Or.inl
      · split at h
        · exact (plain (by rfl) (by rfl) (by simp [keyEv]) h).imp id Or.inl
        · exact (plain (s₁ := { s with keyFreed := true }) rfl rfl (by simp [keyEv]) h).imp id Or.inl
    · cases h
  | newKey b =>
    simp only at h
    split at h
    · have e : newKey s t b = (if (inited s).mgr = .live then
          match (inited s).freed with
          | k :: ks => some ({ inited s with freed := ks, table := (inited s).table.set k b }, [.key t k b])
          | [] => some ({ inited s with table := (inited s).table ++ [b] }, [.key t (inited s).table.length b])
        else undef (inited s) t) := rfl
      rw [e] at h
      split at h
      · split at h
        · next k ks hf =>
          cases h
          exact ⟨fun u k v => by simp, .inr (.inl ⟨k, b, ks, by rw [← i4]; exact hf, rfl, by simp only [i3], rfl⟩)⟩
        · next hf =>
          cases h
          exact ⟨fun u k v => by simp, .inr (.inr (.inl ⟨b, by rw [← i4]; exact hf, i4, by simp only [i3], by simp only [i3]⟩))⟩
      · exact (und i3 i4 h).imp id Or.inl
    · cases h
  | deleteKey k =>
    simp only at h
    split at h
    · next hc =>
      unfold deleteKey at h
      split at h
      · cases h
        refine ⟨fun u k' v' => ⟨fun hm => ?_, fun hm => ?_⟩, .inr (.inr (.inr ⟨k, _, ?_, rfl, rfl, rfl, fun e he => ?_⟩))⟩
        · rcases List.mem_cons.mp hm with hm | hm
          · cases hm
          · obtain ⟨v, _, e⟩ := List.mem_map.mp hm
            obtain ⟨rfl, e⟩ := (disp k _ v u k' v').1 e.symm
            simpa using e
        · rcases List.mem_cons.mp hm with hm | hm
          · cases hm
          · obtain ⟨v, _, e⟩ := List.mem_map.mp hm
            obtain ⟨rfl, e⟩ := (disp k _ v u k' v').2 e.symm
            simpa using e
        · simp only [liveKey, Bool.and_eq_true, decide_eq_true_eq] at hc
          exact hc.2.1
        · obtain ⟨v, _, rfl⟩ := List.mem_map.mp he
          exact keyEv_dispose ..
      · exact (und rfl rfl h).imp id Or.inl
    · cases h
  | get k =>
    simp only at h
    split at h
    · split at h
      · exact (plain (by rfl) (by rfl) (by simp [keyEv]) h).imp id Or.inl
      · split at h
        · exact (plain (by rfl) (by rfl) (by simp [keyEv]) h).imp id Or.inl
        · exact (und rfl rfl h).imp id Or.inl
    · cases h
  | reset k v =>
    simp only at h
    split at h
    · have up : ∀ {old : Option Nat}, update tls s t th (·.put k v) ((v.map fun v => Ev.gave t (.val k v)).toList ++
          (old.map (dispose t k (s.table[k]? = some true))).toList) = some (s', es) →
          (∀ u k v, (Ev.cleaned u k v ∈ es → s.table[k]? = some true) ∧ (Ev.dropped u k v ∈ es → s.table[k]? ≠ some true)) ∧
          (s'.table = s.table ∧ s'.freed = s.freed ∧ ∀ e ∈ es, keyEv e = false) := by
        intro old hu
        obtain ⟨h1, h2, rfl | rfl⟩ := upd rfl rfl hu
        · refine ⟨fun u k' v' => ⟨fun hm => ?_, fun hm => ?_⟩, h1, h2, fun e he => ?_⟩
          · rcases List.mem_append.mp hm with hm | hm
            · cases v <;> simp at hm
            · cases old with
              | none => simp at hm
              | some a =>
                obtain ⟨rfl, e⟩ := (disp k _ a u k' v').1 (List.mem_singleton.mp hm)
                simpa using e
          · rcases List.mem_append.mp hm with hm | hm
            · cases v <;> simp at hm
            · cases old with
              | none => simp at hm
              | some a =>
                obtain ⟨rfl, e⟩ := (disp k _ a u k' v').2 (List.mem_singleton.mp hm)
                simpa using e
          · rcases List.mem_append.mp he with he | he
            · cases v with
              | none => simp at he
              | some a => rw [List.mem_singleton.mp he]; rfl
            · cases old with
              | none => simp at he
              | some a => rw [List.mem_singleton.mp he]; exact keyEv_dispose ..
        · exact ⟨by simp, h1, h2, by simp [keyEv]⟩
      unfold reset at h
      simp only at h
      split at h
      · split at h
        · exact (plain (by rfl) (by rfl) (by simp) h).imp id Or.inl
        · exact (up h).imp id Or.inl
      · split at h
        · split at h
          · exact (plain (by rfl) (by rfl) (by simp) h).imp id Or.inl
          · exact (up h).imp id Or.inl
        · exact (und rfl rfl h).imp id Or.inl
    · cases h
  | atThreadExit i =>
    simp only at h
    split at h
    · obtain ⟨h1, h2, rfl | rfl⟩ := upd i3 i4 h
      · exact ⟨by simp, .inl ⟨h1, h2, by simp [keyEv]⟩⟩
      · exact ⟨by simp, .inl ⟨h1, h2, by simp [keyEv]⟩⟩
    · cases h
  | notifyAtExit m =>
    simp only at h
    split at h
    · obtain ⟨h1, h2, rfl | rfl⟩ := upd i3 i4 h
      · exact ⟨by simp, .inl ⟨h1, h2, by simp [keyEv]⟩⟩
      · exact ⟨by simp, .inl ⟨h1, h2, by simp [keyEv]⟩⟩
    · cases h

theorem tab_exec {tls : Bool} {n : Nat} {tr : List Ev} {s : St} (h : Exec (step tls) (init n) tr s) : Tab tr s := by
  induction h with
  | init => exact ⟨fun k => by simp [init, cleanupOf], nofun⟩
  | @snoc tr s s' l es _ hs ih =>
    have ck : ∀ (e : Ev) (k : Nat), cleanupOf k (tr ++ [e]) = (match e with
        | .key _ k' c => if k' = k then c else cleanupOf k tr
        | .deleted _ k' => if k' = k then false else cleanupOf k tr
        | _ => cleanupOf k tr) := by
      intro e k
      unfold cleanupOf
      rw [List.foldl_append]
      rfl
    have set : ∀ {k : Nat} {b : Bool}, k < s.table.length → ∀ k', ((s.table.set k b)[k']?).getD false = if k = k' then b else (s.table[k']?).getD false := by
      intro k b hk k'
      rw [List.getElem?_set]
      split
      · simp
      · rfl
    rcases (step_tab hs).2 with ⟨h1, h2, h3⟩ | ⟨k, b, ks, h1, h2, h3, rfl⟩ | ⟨b, h1, h2, h3, rfl⟩ | ⟨k, es', h1, h2, h3, rfl, h5⟩
    · exact tab_same ih h1 h2 h3
    · have hk := ih.freed k (by rw [h1]; exact List.mem_cons_self)
      refine ⟨fun k' => ?_, fun k' hk' => ?_⟩
      · rw [h3, set hk, ck]
        simp only [ih.table k']
      · rw [h3, List.length_set]
        exact ih.freed k' (by rw [h1]; exact List.mem_cons_of_mem _ (h2 ▸ hk'))
    · refine ⟨fun k' => ?_, fun k' hk' => ?_⟩
      · rw [h3, ck]
        simp only
        split
        · next e => subst e; simp
        · next e =>
          rw [← ih.table k']
          by_cases hl : k' < s.table.length
          · rw [List.getElem?_append_left hl]
          · rw [List.getElem?_eq_none (by simp; omega), List.getElem?_eq_none (by omega)]
      · rw [h2, h1] at hk'; cases hk'
    · refine ⟨fun k' => ?_, fun k' hk' => ?_⟩
      · have e : tr ++ Ev.deleted l.1 k :: es' = (tr ++ [Ev.deleted l.1 k]) ++ es' := by simp
        rw [h3, set h1, e, cleanupOf_same h5, ck]
        simp only [ih.table k']
      · rw [h3, List.length_set]
        rw [h2] at hk'
        rcases List.mem_cons.mp hk' with rfl | hk'
        · exact h1
        · exact ih.freed k' hk'

theorem exec_of_execS {tls : Bool} {n : Nat} {tr : List Ev} {s : St} (h : Exec (stepS tls) (init n) tr s) : Exec (step tls) (init n) tr s := by
  induction h with
  | init => exact .init
  | snoc _ hs ih => exact ih.snoc (stepS_eq hs).2

end Verif.TssProcess
