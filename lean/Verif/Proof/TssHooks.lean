import Verif.Proof.TssProcessMore
import Verif.Spec.TssHooks

namespace Verif.TssProcess

/-- Before `on_process_exit` every context is that of a thread, and what it holds was handed over by that thread. -/
structure Origin (tr : List Ev) (s : St) : Prop where
  early : s.mgr = .live ∨ s.mgr = .absent
  own : ∀ (i : Nat) (c : Ctx), s.heap[i]? = some (some c) →
    ∃ (t : Nat) (th : Thread), s.threads[t]? = some th ∧ th.slot = some i ∧ ∀ x ∈ c.items, Ev.gave t x ∈ tr
  job : ∀ (t : Nat) (th : Thread) (j : Job), s.threads[t]? = some th → th.job = some j → ∀ x ∈ j.ph.items, Ev.gave t x ∈ tr

theorem origin_init (n : Nat) : Origin [] (init n) :=
  ⟨.inr rfl, fun i c h => by simp [init] at h, fun t th j h1 h2 => by
    have := get_replicate (n := n) (i := t) h1
    rw [this] at h2; cases h2⟩

theorem origin_same {tr es : List Ev} {s s' : St} (hO : Origin tr s) (e0 : s'.mgr = .live ∨ s'.mgr = .absent) (e1 : s'.heap = s.heap)
    (e2 : s'.threads = s.threads) : Origin (tr ++ es) s' := by
  refine ⟨e0, fun i c h => ?_, fun t th j h1 h2 x hx => ?_⟩
  · obtain ⟨t, th, h1, h2, h3⟩ := hO.own i c (e1 ▸ h)
    exact ⟨t, th, e2 ▸ h1, h2, fun x hx => List.mem_append_left _ (h3 x hx)⟩
  · exact List.mem_append_left _ (hO.job t th j (e2 ▸ h1) h2 x hx)

theorem own_of {tr : List Ev} {s : St} (hI : Inv s) (hO : Origin tr s) {t i : Nat} {th : Thread} {c : Ctx} (ht : s.threads[t]? = some th)
    (hs : th.slot = some i) (hc : s.heap[i]? = some (some c)) : ∀ x ∈ c.items, Ev.gave t x ∈ tr := by
  obtain ⟨u, v, h1, h2, h3⟩ := hO.own i c hc
  have e := hI.slotInj u t v th i h1 ht h2 hs
  subst e
  exact h3

theorem mem_count {x : Item} {l : List Item} : x ∈ l ↔ 0 < l.count x := List.count_pos_iff.symm

theorem mem_put {c : Ctx} {k : Nat} {v : Option Nat} {x : Item} (h : x ∈ (c.put k v).items) : x ∈ c.items ∨ ∃ w, v = some w ∧ x = .val k w := by
  have := put_items c k v x
  rw [mem_count] at h
  by_cases hx : x ∈ c.items
  · exact .inl hx
  · right
    have h0 : c.items.count x = 0 := List.count_eq_zero.mpr hx
    have : 0 < (v.map (Item.val k)).toList.count x := by omega
    rw [← mem_count] at this
    cases v with
    | none => cases this
    | some w => exact ⟨w, rfl, List.mem_singleton.mp this⟩

theorem mem_get {c : Ctx} {k v : Nat} (h : c.get k = some v) : Item.val k v ∈ c.items := by
  have := put_items c k none (.val k v)
  rw [h] at this
  simp only [Option.map_some, Option.toList_some, List.count_singleton, beq_self_eq_true, if_true, Option.map_none, Option.toList_none, List.count_nil] at this
  rw [mem_count]
  omega

theorem mem_clear {c : Ctx} {k : Nat} {x : Item} (h : x ∈ (c.clear k).items) : x ∈ c.items := by
  have := clear_items k c x
  rw [mem_count] at h ⊢
  omega

/-- What a step tells of the items it deals with. -/
def Mine (tr : List Ev) (t : Nat) (es : List Ev) : Prop := ∀ e ∈ es, ∀ x, isSettled x e = true ∨ isLost x e = true → Ev.gave t x ∈ tr

theorem mine_none {tr : List Ev} {t : Nat} {es : List Ev} (h : ∀ e ∈ es, ∀ x, isSettled x e = false ∧ isLost x e = false) : Mine tr t es := fun e he x hx => by
  obtain ⟨h1, h2⟩ := h e he x
  rw [h1, h2] at hx
  simp at hx

theorem mine_dispose {tr : List Ev} {t k v : Nat} {b : Bool} (h : Ev.gave t (.val k v) ∈ tr) : Mine tr t [dispose t k b v] := fun e he x hx => by
  rw [List.mem_singleton.mp he, settled_dispose, lost_dispose] at hx
  simp only [beq_iff_eq, Bool.false_eq_true, or_false] at hx
  rw [hx]; exact h

/-- A hook goes on. -/
theorem origin_goto {tr es : List Ev} {s : St} (hO : Origin tr s) {t : Nat} {th : Thread} {j : Job} (ht : s.threads[t]? = some th)
    {ph : Phase} {cb : Bool} (hp : ∀ x ∈ ph.items, Ev.gave t x ∈ tr) :
    Origin (tr ++ es) { s with threads := s.threads.set t { th with job := some { j with ph := ph, cb := cb } } } := by
  refine ⟨hO.early, fun i c h => ?_, fun u v j' h1 h2 x hx => ?_⟩
  · obtain ⟨u, v, h1, h2, h3⟩ := hO.own i c h
    by_cases e : t = u
    · subst e
      rw [ht] at h1; cases h1
      exact ⟨t, _, get_set_self ht, h2, fun x hx => List.mem_append_left _ (h3 x hx)⟩
    · exact ⟨u, v, (get_set_ne e).trans h1, h2, fun x hx => List.mem_append_left _ (h3 x hx)⟩
  · refine List.mem_append_left _ ?_
    rcases get_set_cases h1 with ⟨e, h3⟩ | ⟨_, h3⟩
    · subst e; subst h3; cases h2; exact hp x hx
    · exact hO.job u v j' h3 h2 x hx

/-- A context changes. -/
theorem origin_heap {tr es : List Ev} {s : St} (hI : Inv s) (hO : Origin tr s) {t i : Nat} {th : Thread} {c c' : Ctx} (ht : s.threads[t]? = some th)
    (hs : th.slot = some i) (hc : s.heap[i]? = some (some c)) (h : ∀ x ∈ c'.items, x ∈ c.items ∨ Ev.gave t x ∈ es) :
    Origin (tr ++ es) { s with heap := s.heap.set i (some c') } := by
  refine ⟨hO.early, fun i' d hd => ?_, fun u v j' h1 h2 x hx => List.mem_append_left _ (hO.job u v j' h1 h2 x hx)⟩
  rcases get_set_cases hd with ⟨e, h1⟩ | ⟨_, h1⟩
  · subst e; cases h1
    refine ⟨t, th, ht, hs, fun x hx => ?_⟩
    rcases h x hx with h | h
    · exact List.mem_append_left _ (own_of hI hO ht hs hc x h)
    · exact List.mem_append_right _ h
  · obtain ⟨u, v, h1, h2, h3⟩ := hO.own i' d h1
    exact ⟨u, v, h1, h2, fun x hx => List.mem_append_left _ (h3 x hx)⟩

/-- A context is made. -/
theorem origin_fresh {tr es : List Ev} {s : St} (hO : Origin tr s) {t : Nat} {th : Thread} {c : Ctx} (ht : s.threads[t]? = some th)
    (hs : th.slot = none) (h : ∀ x ∈ c.items, Ev.gave t x ∈ es) :
    Origin (tr ++ es) { s with heap := s.heap ++ [some c], threads := s.threads.set t { th with slot := some s.heap.length } } := by
  refine ⟨hO.early, fun i d hd => ?_, fun u v j' h1 h2 x hx => ?_⟩
  · rw [List.getElem?_append] at hd
    split at hd
    · obtain ⟨u, v, h1, h2, h3⟩ := hO.own i d hd
      have e : t ≠ u := by
        rintro rfl
        rw [ht] at h1; cases h1
        rw [hs] at h2; cases h2
      exact ⟨u, v, (get_set_ne e).trans h1, h2, fun x hx => List.mem_append_left _ (h3 x hx)⟩
    · next hlt =>
      have hi : i = s.heap.length := by
        have := (List.getElem?_eq_some_iff.mp hd).1
        simp at this
        omega
      subst hi
      simp at hd
      subst hd
      exact ⟨t, _, get_set_self ht, rfl, fun x hx => List.mem_append_right _ (h x hx)⟩
  · refine List.mem_append_left _ ?_
    rcases get_set_cases h1 with ⟨e, h3⟩ | ⟨_, h3⟩
    · subst e; subst h3; exact hO.job t th j' ht h2 x hx
    · exact hO.job u v j' h3 h2 x hx

theorem origin_update {tls : Bool} {tr es es' : List Ev} {s s' : St} (hI : Inv s) (hO : Origin tr s) (hm : s.mgr = .live) {t : Nat} {th : Thread}
    (ht : s.threads[t]? = some th) {f : Ctx → Ctx} (hf : ∀ c, ∀ x ∈ (f c).items, x ∈ c.items ∨ Ev.gave t x ∈ es)
    (h : update tls s t th f es = some (s', es')) : Origin (tr ++ es') s' ∧ es' = es := by
  unfold update at h
  split at h
  · next i hi =>
    have hs : th.slot = some i := by
      unfold ctxPtr at hi
      split at hi
      · cases hi
      · exact hi
    obtain ⟨c, hc⟩ := hI.slotLive hm t th i ht hs
    simp only [hc] at h
    cases h
    exact ⟨origin_heap hI hO ht hs hc (hf c), rfl⟩
  · next hn =>
    rw [if_pos hm] at h
    cases h
    refine ⟨origin_fresh hO ht (slot_of_noCtx hI hm hn) fun x hx => ?_, rfl⟩
    rcases hf _ x hx with h | h
    · simp [Ctx.items, vals] at h
    · exact h

theorem origin_inited {tr : List Ev} {s : St} (hO : Origin tr s) : Origin tr (inited s) ∧ (inited s).mgr = .live := by
  have hm : (inited s).mgr = .live := by
    unfold inited
    rcases hO.early with h | h
    · rw [if_neg (by rw [h]; nofun)]; exact h
    · rw [if_pos h]
  refine ⟨?_, hm⟩
  have := origin_same (es := []) hO (.inl hm) inited_same.1 inited_same.2.1
  rwa [List.append_nil] at this

theorem origin_next {tr es : List Ev} {s s' : St} (hI : Inv s) (hO : Origin tr s) {t : Nat} {th : Thread} {j : Job} (ht : s.threads[t]? = some th)
    (hj : th.job = some j) (h : next s t th j = some (s', es)) : Origin (tr ++ es) s' ∧ Mine tr t es := by
  have hp : j.proc = false := by
    cases hp : j.proc with
    | false => rfl
    | true =>
      have := hI.jobProc t th j ht hj hp
      rcases hO.early with h | h <;> rw [h] at this <;> cases this
  have hslot := (hI.jobThread t th j ht hj hp).2
  obtain ⟨c, hc⟩ := hI.jobCtx t th j ht hj
  have hown := own_of hI hO ht hslot hc
  have hph := hO.job t th j ht hj
  -- a step that takes something from the context
  have take : ∀ {c' : Ctx} {ph : Phase} {cb : Bool}, (∀ x ∈ c'.items, x ∈ c.items) → (∀ x ∈ ph.items, x ∈ c.items) →
      Origin (tr ++ []) { s with heap := s.heap.set j.ctx (some c'), threads := s.threads.set t { th with job := some { j with ph := ph, cb := cb } } } := by
    intro c' ph cb h1 h2
    have h3 := origin_heap (es := []) hI hO ht hslot hc fun x hx => .inl (h1 x hx)
    rw [List.append_nil] at h3
    exact origin_goto (es := []) h3 ht fun x hx => hown x (h2 x hx)
  unfold next at h
  simp only [hc] at h
  split at h
  · next i rest e =>
    cases h
    rw [e] at hph
    refine ⟨origin_goto hO ht fun x hx => hph x (List.mem_cons_of_mem _ hx), fun e he x hx => ?_⟩
    rw [List.mem_singleton.mp he] at hx
    simp only [isSettled, isLost, decide_eq_true_eq, Bool.false_eq_true, or_false] at hx
    rw [hx]; exact hph _ List.mem_cons_self
  · next e =>
    split at h
    · cases h; exact ⟨origin_goto hO ht nofun, nofun⟩
    · cases h
      refine ⟨take (fun x hx => ?_) (fun x hx => ?_), fun e he => by cases he⟩
      · simp only [Ctx.items, List.map_nil, List.append_nil, List.mem_append] at hx ⊢
        rcases hx with h | h
        · exact .inl (.inl h)
        · exact .inr h
      · simp only [Phase.items, List.map_reverse, List.mem_reverse] at hx
        simp only [Ctx.items, List.mem_append]
        exact .inl (.inr hx)
  · next k rest e =>
    cases h
    rw [e] at hph
    exact ⟨origin_goto hO ht fun x hx => hph x hx, fun e he => by cases he⟩
  · next k v rest e =>
    rw [e] at hph
    split at h
    · next b hb =>
      cases h
      exact ⟨origin_goto hO ht fun x hx => hph x (List.mem_cons_of_mem _ hx), mine_dispose (hph _ List.mem_cons_self)⟩
    · next hb =>
      exfalso
      have := hI.sizeJob t th j k _ ht hj e
      rw [List.getElem?_eq_none_iff] at hb
      simp at this
      omega
  · next k e =>
    split at h
    · cases h
      refine ⟨take (fun x hx => ?_) (fun x hx => ?_), fun e he => by cases he⟩
      · simp only [Ctx.items, List.map_nil, List.append_nil, List.mem_append] at hx ⊢
        exact .inl hx
      · simp only [Ctx.items, List.mem_append]
        exact .inr hx
    · cases h
      refine ⟨take (fun x hx => ?_) (fun x hx => ?_), fun e he => by cases he⟩
      · simp only [Ctx.items, vals, List.nil_append, List.mem_append] at hx ⊢
        rcases hx with h | h
        · exact .inl (.inr h)
        · exact .inr h
      · simp only [Ctx.items, List.mem_append]
        exact .inl (.inl hx)
  · next m rest e =>
    cases h
    rw [e] at hph
    refine ⟨origin_goto hO ht fun x hx => hph x (List.mem_cons_of_mem _ hx), fun e he x hx => ?_⟩
    rw [List.mem_singleton.mp he] at hx
    simp only [isSettled, isLost, decide_eq_true_eq, Bool.false_eq_true, or_false] at hx
    rw [hx]; exact hph _ List.mem_cons_self
  · next e =>
    have e2 : finish s t th j c = (s', es) := by simpa using h
    unfold finish at e2
    simp only [hp, Bool.false_eq_true, if_false, Prod.mk.injEq] at e2
    obtain ⟨rfl, rfl⟩ := e2
    refine ⟨⟨hO.early, fun i d hd => ?_, fun u v j' h1 h2 x hx => ?_⟩, fun e he x hx => ?_⟩
    · rcases get_set_cases hd with ⟨_, h1⟩ | ⟨h0, h1⟩
      · cases h1
      · obtain ⟨u, v, h2, h3, h4⟩ := hO.own i d h1
        have e : t ≠ u := by
          rintro rfl
          rw [ht] at h2; cases h2
          rw [hslot] at h3; cases h3
          exact h0 rfl
        exact ⟨u, v, (get_set_ne e).trans h2, h3, fun x hx => List.mem_append_left _ (h4 x hx)⟩
    · rcases get_set_cases h1 with ⟨_, h3⟩ | ⟨_, h3⟩
      · subst h3; cases h2
      · exact List.mem_append_left _ (hO.job u v j' h3 h2 x hx)
    · rcases List.mem_append.mp he with he | he
      · obtain ⟨i, hi, rfl⟩ := List.mem_map.mp he
        simp only [isSettled, isLost, decide_eq_true_eq, Bool.false_eq_true, false_or] at hx
        rw [hx]
        refine hown _ ?_
        simp only [Ctx.items, List.mem_append]
        exact .inl (.inr (List.mem_map.mpr ⟨i, hi, rfl⟩))
      · rw [List.mem_singleton.mp he] at hx
        simp [isSettled, isLost] at hx

theorem origin_step {tls : Bool} {tr es : List Ev} {s s' : St} (hI : Inv s) (hO : Origin tr s) {t : Nat} {op : Op} (hop : op ≠ .processExit)
    (h : step tls s (t, op) = some (s', es)) : Origin (tr ++ es) s' ∧ ((∀ k, op ≠ .deleteKey k) → Mine tr t es) := by
  obtain ⟨hOi, hmi⟩ := origin_inited hO
  have hIi := inv_inited hI
  obtain ⟨i1, i2, _⟩ := inited_same (s := s)
  unfold step at h
  simp only at h
  split at h
  · cases h
  · next th ht =>
    have hti : (inited s).threads[t]? = some th := i2 ▸ ht
    rw [if_neg (by rw [hI.alive]; nofun)] at h
    cases op with
    | processExit => exact absurd rfl hop
    | next =>
      simp only at h
      split at h
      · cases h
      · next j hj => exact (origin_next hI hO ht hj h).imp id fun h _ => h
    | threadExit =>
      simp only at h
      split at h
      · next hj =>
        have e : threadExit tls s t th = (match ctxPtr tls (inited s) th with
            | none => some (inited s, [.threadExited t])
            | some i =>
              if (inited s).mgr = .live then
                some ({ inited s with threads := (inited s).threads.set t { th with job := some ⟨i, .atExit [], false, false⟩ } }, [])
              else undef (inited s) t) := rfl
        rw [e] at h
        split at h
        · cases h
          exact ⟨origin_same hO (.inl hmi) i1 i2, fun _ => mine_none fun e he x => by rw [List.mem_singleton.mp he]; exact ⟨rfl, rfl⟩⟩
        · next i hi =>
          rw [if_pos hmi] at h
          cases h
          exact ⟨origin_goto (j := ⟨i, .atExit [], false, false⟩) hOi hti nofun, fun _ => mine_none nofun⟩
      · cases h
    | newKey b =>
      simp only at h
      split at h
      · have e : newKey s t b = (if (inited s).mgr = .live then
            match (inited s).freed with
            | k :: ks => some ({ inited s with freed := ks, table := (inited s).table.set k b }, [.key t k b])
            | [] => some ({ inited s with table := (inited s).table ++ [b] }, [.key t (inited s).table.length b])
          else undef (inited s) t) := rfl
        rw [e, if_pos hmi] at h
        split at h
        all_goals
          cases h
          exact ⟨origin_same hO (.inl hmi) i1 i2, fun _ => mine_none fun e he x => by rw [List.mem_singleton.mp he]; exact ⟨rfl, rfl⟩⟩
      · cases h
    | deleteKey k =>
      refine ⟨?_, fun hn => absurd rfl (hn k)⟩
      simp only [Bool.and_eq_true] at h
      split at h
      · next hc =>
        have hm : s.mgr = .live := by
          rcases hO.early with h | h
          · exact h
          · exfalso
            have := hc.2
            unfold liveKey at this
            rw [hI.tab h] at this
            simp at this
        unfold deleteKey at h
        rw [if_pos hm] at h
        cases h
        refine ⟨hO.early, fun i c h => ?_, fun u v j h1 h2 x hx => List.mem_append_left _ (hO.job u v j h1 h2 x hx)⟩
        simp only [List.getElem?_map, Option.map_eq_some_iff] at h
        obtain ⟨o, ho, c0, rfl, rfl⟩ := h
        obtain ⟨u, v, h1, h2, h3⟩ := hO.own i c0 ho
        exact ⟨u, v, h1, h2, fun x hx => List.mem_append_left _ (h3 x (mem_clear hx))⟩
      · cases h
    | get k =>
      have hz : ∀ v, Origin (tr ++ [Ev.got t k v]) s ∧ ((∀ k', Op.get k ≠ .deleteKey k') → Mine tr t [Ev.got t k v]) := fun v =>
        ⟨origin_same hO hO.early rfl rfl, fun _ => mine_none fun e he x => by rw [List.mem_singleton.mp he]; exact ⟨rfl, rfl⟩⟩
      simp only at h
      split at h
      · split at h
        · cases h; exact hz _
        · next i hi =>
          split at h
          · cases h; exact hz _
          · next hne =>
            exfalso
            rcases ptr_cases (tls := tls) ht with ⟨e1, _⟩ | ⟨i', e1, e2, e3, e4⟩
            · rw [e1] at hi; cases hi
            · rw [e1] at hi; cases hi
              rcases TssProcess.early (tls := tls) hI ht hO.early with h | h
              · rw [e3] at h; cases h
              · obtain ⟨c, hc⟩ := e4.mp h; exact hne c hc
      · cases h
    | reset k v =>
      simp only [Bool.and_eq_true] at h
      split at h
      · next hc =>
        have hm : s.mgr = .live := by
          rcases hO.early with h | h
          · exact h
          · exfalso
            have := hc.2
            unfold liveKey at this
            rw [hI.tab h] at this
            simp at this
        have up : ∀ {old : Option Nat}, (∀ w, old = some w → Ev.gave t (.val k w) ∈ tr) →
            update tls s t th (·.put k v) ((v.map fun v => Ev.gave t (.val k v)).toList ++ (old.map (dispose t k (s.table[k]? = some true))).toList) = some (s', es) →
            Origin (tr ++ es) s' ∧ Mine tr t es := by
          intro old ho hup
          obtain ⟨h1, h2⟩ := origin_update hI hO hm ht (fun c x hx => by
            rcases mem_put hx with h | ⟨w, rfl, rfl⟩
            · exact .inl h
            · exact .inr (by simp)) hup
          refine ⟨h1, ?_⟩
          rw [h2]
          intro e he x hx
          rcases List.mem_append.mp he with he | he
          · cases v with
            | none => cases he
            | some w => rw [List.mem_singleton.mp he] at hx; simp [isSettled, isLost] at hx
          · cases old with
            | none => cases he
            | some w => exact mine_dispose (ho w rfl) e he x hx
        suffices key : Origin (tr ++ es) s' ∧ Mine tr t es from key.imp id fun h _ => h
        unfold reset at h
        simp only at h
        split at h
        · split at h
          · cases h; exact ⟨origin_same hO hO.early rfl rfl, mine_none fun e he => by cases he⟩
          · exact up (old := none) nofun h
        · next i hi =>
          have hs : th.slot = some i := by
            unfold ctxPtr at hi
            split at hi
            · cases hi
            · exact hi
          obtain ⟨c, hc⟩ := hI.slotLive hm t th i ht hs
          simp only [hc] at h
          split at h
          · cases h; exact ⟨origin_same hO hO.early rfl rfl, mine_none fun e he => by cases he⟩
          · exact up (fun w hw => own_of hI hO ht hs hc _ (mem_get hw)) h
      · cases h
    | atThreadExit i =>
      simp only at h
      split at h
      · have h' : update tls (inited s) t th (fun c => { c with atExit := c.atExit ++ [i] }) [.gave t (.cb i)] = some (s', es) := h
        obtain ⟨h1, h2⟩ := origin_update hIi hOi hmi hti (fun c x hx => by
          simp only [Ctx.items, List.map_append, List.map_cons, List.map_nil, List.mem_append, List.mem_singleton] at hx ⊢
          rcases hx with (h | h | h) | h
          · exact .inl (.inl (.inl h))
          · exact .inl (.inl (.inr h))
          · right; rw [h]
          · exact .inl (.inr h)) h'
        exact ⟨h1, fun _ => h2 ▸ mine_none fun e he x => by rw [List.mem_singleton.mp he]; exact ⟨rfl, rfl⟩⟩
      · cases h
    | notifyAtExit m =>
      simp only at h
      split at h
      · have h' : update tls (inited s) t th (fun c => { c with notify := c.notify ++ [m] }) [.gave t (.ntf m)] = some (s', es) := h
        obtain ⟨h1, h2⟩ := origin_update hIi hOi hmi hti (fun c x hx => by
          simp only [Ctx.items, List.map_append, List.map_cons, List.map_nil, List.mem_append, List.mem_singleton] at hx ⊢
          rcases hx with h | h | h
          · exact .inl (.inl h)
          · exact .inl (.inr h)
          · right; rw [h]) h'
        exact ⟨h1, fun _ => h2 ▸ mine_none fun e he x => by rw [List.mem_singleton.mp he]; exact ⟨rfl, rfl⟩⟩
      · cases h

/-- Once `on_process_exit` has been called. -/
def late (s : St) : Bool := s.mgr = .dying || s.mgr = .gone

theorem late_undef {s s' s₁ : St} {t : Nat} {es : List Ev} (e : s₁.mgr = s.mgr) (h : undef s₁ t = some (s', es)) : s'.mgr = s.mgr := by
  unfold undef at h; cases h; exact e

theorem late_update {tls : Bool} {s s' : St} {t : Nat} {th : Thread} {f : Ctx → Ctx} {es es' : List Ev} (h : update tls s t th f es = some (s', es')) :
    s'.mgr = s.mgr := by
  unfold update undef at h
  repeat' split at h
  all_goals (cases h; rfl)

theorem late_step {tls : Bool} {s s' : St} {l : Nat × Op} {es : List Ev} (hl : late s = true) (h : step tls s l = some (s', es)) : late s' = true := by
  have hi : (if s.mgr = .absent then { s with mgr := .live } else s) = s := by
    rw [if_neg]
    intro e; unfold late at hl; rw [e] at hl; cases hl
  have keep : s'.mgr = s.mgr → late s' = true := fun e => by unfold late at hl ⊢; rw [e]; exact hl
  obtain ⟨t, op⟩ := l
  unfold step at h
  simp only at h
  split at h
  · cases h
  · split at h
    · cases h
    · cases op with
      | next =>
        simp only at h
        split at h
        · cases h
        · next j hj =>
          unfold next at h
          simp only at h
          repeat' split at h
          all_goals first
            | (simp only [Option.some.injEq, Prod.mk.injEq] at h; obtain ⟨rfl, -⟩ := h; exact keep rfl)
            | exact keep (late_undef rfl h)
            | skip
          simp only [Option.some.injEq] at h
          unfold finish procLoop at h
          simp only [Prod.mk.injEq] at h
          obtain ⟨rfl, -⟩ := h
          split
          · split
            · exact hl
            · rfl
          · exact hl
      | threadExit =>
        simp only at h
        split at h
        · unfold threadExit at h
          simp only [hi] at h
          repeat' split at h
          · cases h; exact hl
          · cases h; exact hl
          · exact keep (late_undef rfl h)
        · cases h
      | processExit =>
        simp only at h
        split at h
        · unfold processExit procLoop at h
          repeat' split at h
          all_goals first
            | (cases h; exact hl)
            | (cases h; rfl)
        · cases h
      | newKey b =>
        simp only at h
        split at h
        · unfold newKey at h
          simp only [hi] at h
          repeat' split at h
          · cases h; exact hl
          · cases h; exact hl
          · exact keep (late_undef rfl h)
        · cases h
      | deleteKey k =>
        simp only at h
        split at h
        · unfold deleteKey at h
          split at h
          · cases h; exact hl
          · exact keep (late_undef rfl h)
        · cases h
      | get k =>
        simp only at h
        repeat' split at h
        · cases h; exact hl
        · cases h; exact hl
        · exact keep (late_undef rfl h)
        · cases h
      | reset k v =>
        simp only at h
        split at h
        · unfold reset at h
          simp only at h
          repeat' split at h
          · cases h; exact hl
          · exact keep (late_update h)
          · cases h; exact hl
          · exact keep (late_update h)
          · exact keep (late_undef rfl h)
        · cases h
      | atThreadExit i =>
        simp only [hi] at h
        split at h
        · exact keep (late_update h)
        · cases h
      | notifyAtExit m =>
        simp only [hi] at h
        split at h
        · exact keep (late_update h)
        · cases h

theorem late_iff {s : St} : late s = false ↔ s.mgr = .live ∨ s.mgr = .absent := by
  unfold late
  cases s.mgr <;> simp

theorem origin_exec {tls : Bool} {n : Nat} {tr : List Ev} {s : St} (h : Exec (stepS tls) (init n) tr s) (hl : late s = false) : Origin tr s := by
  induction h with
  | init => exact origin_init n
  | @snoc tr s s' l es h hs ih =>
    have hI := (inv_exec h).1
    obtain ⟨h1, h2⟩ := stepS_eq hs
    have hl0 : late s = false := by
      cases hl0 : late s with
      | false => rfl
      | true => rw [late_step hl0 h2] at hl; cases hl
    have hO := ih hl0
    obtain ⟨t, op⟩ := l
    by_cases hop : op = .processExit
    · subst hop
      unfold step at h2
      simp only at h2
      split at h2
      · cases h2
      · rw [if_neg (by rw [hI.alive]; nofun)] at h2
        split at h2
        · unfold processExit at h2
          split at h2
          · exfalso
            unfold procLoop at h2
            simp only at h2
            split at h2 <;> (cases h2; cases hl)
          · split at h2
            · cases h2; exact origin_same hO hO.early rfl rfl
            · next h3 h4 => rcases hO.early with h | h <;> contradiction
        · cases h2
    · exact (origin_step hI hO hop h2).1

theorem job_update {tls : Bool} {s s' : St} {t : Nat} {th : Thread} (ht : s.threads[t]? = some th) {f : Ctx → Ctx} {es es' : List Ev}
    (h : update tls s t th f es = some (s', es')) {m : Nat} {v : Thread} (hv : s'.threads[m]? = some v) :
    ∃ w, s.threads[m]? = some w ∧ v.job = w.job := by
  unfold update undef at h
  repeat' split at h
  all_goals (cases h)
  · exact ⟨v, hv, rfl⟩
  · exact ⟨v, hv, rfl⟩
  · rcases get_set_cases hv with ⟨h1, h2⟩ | ⟨_, h2⟩
    · subst h1; subst h2; exact ⟨th, ht, rfl⟩
    · exact ⟨v, h2, rfl⟩
  · exact ⟨v, hv, rfl⟩

/-- A thread is not in a hook unless it has called it. -/
theorem job_none_step {tls : Bool} {s s' : St} {m : Nat} {l : Nat × Op} {es : List Ev}
    (hm : ∀ v : Thread, s.threads[m]? = some v → v.job = none) (hl : l ≠ (m, .threadExit)) (hop : l.2 ≠ .processExit) (h : step tls s l = some (s', es)) :
    ∀ v : Thread, s'.threads[m]? = some v → v.job = none := by
  obtain ⟨t, op⟩ := l
  simp only at hop
  intro v hv
  have keep : s'.threads = s.threads → v.job = none := fun e => hm v (e ▸ hv)
  have other : ∀ w : Thread, t ≠ m → s'.threads = s.threads.set t w → v.job = none := fun w hne e => by
    rw [e, get_set_ne hne] at hv
    exact hm v hv
  obtain ⟨i1, i2, _⟩ := inited_same (s := s)
  unfold step at h
  simp only at h
  split at h
  · cases h
  · next th ht =>
    have upd : ∀ {s₁ : St} {f : Ctx → Ctx} {e : List Ev}, s₁.threads = s.threads → update tls s₁ t th f e = some (s', es) → v.job = none := by
      intro s₁ f e e1 hup
      obtain ⟨w, h1, h2⟩ := job_update (e1 ▸ ht) hup hv
      rw [h2]; exact hm w (e1 ▸ h1)
    have und : ∀ {s₁ : St}, s₁.threads = s.threads → undef s₁ t = some (s', es) → v.job = none := by
      intro s₁ e1 hu
      unfold undef at hu; cases hu
      exact hm v (e1 ▸ hv)
    split at h
    · cases h
    · cases op with
      | processExit => exact absurd rfl hop
      | next =>
        simp only at h
        split at h
        · cases h
        · next j hj =>
          have hne : t ≠ m := by rintro rfl; rw [hm th ht] at hj; cases hj
          unfold next at h
          simp only at h
          repeat' split at h
          all_goals first
            | exact und rfl h
            | (simp only [Option.some.injEq, Prod.mk.injEq] at h; obtain ⟨rfl, -⟩ := h; exact other _ hne rfl)
            | skip
          simp only [Option.some.injEq] at h
          unfold finish procLoop at h
          simp only [Prod.mk.injEq] at h
          obtain ⟨rfl, -⟩ := h
          split at hv
          · split at hv
            · rw [get_set_ne hne] at hv; exact hm v hv
            · rw [get_set_ne hne] at hv; exact hm v hv
          · rw [get_set_ne hne] at hv; exact hm v hv
      | threadExit =>
        have hne : t ≠ m := by rintro rfl; exact hl rfl
        simp only at h
        split at h
        · have e : threadExit tls s t th = (match ctxPtr tls (inited s) th with
              | none => some (inited s, [.threadExited t])
              | some i =>
                if (inited s).mgr = .live then
                  some ({ inited s with threads := (inited s).threads.set t { th with job := some ⟨i, .atExit [], false, false⟩ } }, [])
                else undef (inited s) t) := rfl
          rw [e] at h
          split at h
          · cases h; exact keep i2
          · split at h
            · cases h; exact other _ hne (by rw [i2])
            · exact und i2 h
        · cases h
      | newKey b =>
        simp only at h
        split at h
        · have e : newKey s t b = (if (inited s).mgr = .live then
              match (inited s).freed with
              | k :: ks => some ({ inited s with freed := ks, table := (inited s).table.set k b }, [.key t k b])
              | [] => some ({ inited s with table := (inited s).table ++ [b] }, [.key t (inited s).table.length b])
            else undef (inited s) t) := rfl
          rw [e] at h
          repeat' split at h
          · cases h; exact keep i2
          · cases h; exact keep i2
          · exact und i2 h
        · cases h
      | deleteKey k =>
        simp only at h
        split at h
        · unfold deleteKey at h
          split at h
          · cases h; exact keep rfl
          · exact und rfl h
        · cases h
      | get k =>
        simp only at h
        repeat' split at h
        · cases h; exact keep rfl
        · cases h; exact keep rfl
        · exact und rfl h
        · cases h
      | reset k v =>
        simp only at h
        split at h
        · unfold reset at h
          simp only at h
          repeat' split at h
          · cases h; exact keep rfl
          · exact upd rfl h
          · cases h; exact keep rfl
          · exact upd rfl h
          · exact und rfl h
        · cases h
      | atThreadExit i =>
        simp only at h
        split at h
        · exact upd (s₁ := inited s) i2 h
        · cases h
      | notifyAtExit i =>
        simp only at h
        split at h
        · exact upd (s₁ := inited s) i2 h
        · cases h

theorem update_events {tls : Bool} {s s' : St} {t : Nat} {th : Thread} {f : Ctx → Ctx} {es es' : List Ev}
    (h : update tls s t th f es = some (s', es')) : es' = es ∨ es' = [.ub t] := by
  unfold update undef at h
  repeat' split at h
  all_goals (cases h; first | exact .inl rfl | exact .inr rfl)

/-- Calls that deal with nothing. -/
theorem quiet_ops {tls : Bool} {s s' : St} {t : Nat} {op : Op} {es : List Ev}
    (hop : (∃ b, op = .newKey b) ∨ (∃ k, op = .get k) ∨ (∃ i, op = .atThreadExit i) ∨ ∃ m, op = .notifyAtExit m) (h : step tls s (t, op) = some (s', es)) :
    ∀ e ∈ es, ∀ x, ¬ (isSettled x e = true ∨ isLost x e = true) := by
  have one : ∀ e₀ : Ev, (∀ x, isSettled x e₀ = false ∧ isLost x e₀ = false) → ∀ e ∈ [e₀], ∀ x, ¬ (isSettled x e = true ∨ isLost x e = true) := by
    intro e₀ h0 e he x
    rw [List.mem_singleton.mp he]
    simp [h0 x]
  have up : ∀ {s₁ : St} {th : Thread} {f : Ctx → Ctx} {e₀ : Ev}, (∀ x, isSettled x e₀ = false ∧ isLost x e₀ = false) → update tls s₁ t th f [e₀] = some (s', es) →
      ∀ e ∈ es, ∀ x, ¬ (isSettled x e = true ∨ isLost x e = true) := by
    intro s₁ th f e₀ h0 hup
    rcases update_events hup with rfl | rfl
    · exact one e₀ h0
    · exact one _ fun x => ⟨rfl, rfl⟩
  unfold step at h
  simp only at h
  split at h
  · cases h
  · split at h
    · cases h
    · rcases hop with ⟨b, rfl⟩ | ⟨k, rfl⟩ | ⟨i, rfl⟩ | ⟨i, rfl⟩
      · simp only at h
        split at h
        · unfold newKey undef at h
          simp only at h
          repeat' split at h
          all_goals
            simp only [Option.some.injEq, Prod.mk.injEq] at h
            obtain ⟨-, rfl⟩ := h
            exact one _ fun x => ⟨rfl, rfl⟩
        · cases h
      · simp only at h
        unfold undef at h
        repeat' split at h
        all_goals first
          | (cases h; done)
          | (simp only [Option.some.injEq, Prod.mk.injEq] at h
             obtain ⟨-, rfl⟩ := h
             exact one _ fun x => ⟨rfl, rfl⟩)
      · simp only at h
        split at h
        · exact up (fun x => ⟨rfl, rfl⟩) h
        · cases h
      · simp only at h
        split at h
        · exact up (fun x => ⟨rfl, rfl⟩) h
        · cases h

/-- Storing a value and destroying a `thread_specific_ptr` deal with values only. -/
theorem values_only {tls : Bool} {s s' : St} {l : Nat × Op} {es : List Ev} (hop : (∃ k, l.2 = .deleteKey k) ∨ ∃ k v, l.2 = .reset k v) {x : Item}
    (hx : (∃ i, x = .cb i) ∨ ∃ i, x = .ntf i) (h : step tls s l = some (s', es)) : ∀ e ∈ es, ¬ (isSettled x e = true ∨ isLost x e = true) := by
  obtain ⟨t, op⟩ := l
  simp only at hop
  have hd : ∀ k b v, ¬ (isSettled x (dispose t k b v) = true ∨ isLost x (dispose t k b v) = true) := by
    intro k b v
    rw [settled_dispose, lost_dispose]
    rcases hx with ⟨i, rfl⟩ | ⟨i, rfl⟩ <;> simp
  have hu : ∀ e ∈ [Ev.ub t], ¬ (isSettled x e = true ∨ isLost x e = true) := fun e he => by
    rw [List.mem_singleton.mp he]; simp [isSettled, isLost]
  unfold step at h
  simp only at h
  split at h
  · cases h
  · split at h
    · cases h
    · rcases hop with ⟨k, rfl⟩ | ⟨k, v, rfl⟩
      · simp only at h
        split at h
        · unfold deleteKey undef at h
          split at h
          · simp only [Option.some.injEq, Prod.mk.injEq] at h
            obtain ⟨-, rfl⟩ := h
            intro e he
            rcases List.mem_cons.mp he with rfl | he
            · simp [isSettled, isLost]
            · obtain ⟨v, _, rfl⟩ := List.mem_map.mp he
              exact hd _ _ _
          · simp only [Option.some.injEq, Prod.mk.injEq] at h
            obtain ⟨-, rfl⟩ := h
            exact hu
        · cases h
      · simp only at h
        split at h
        · next th _ _ _ =>
          have up : ∀ {old : Option Nat}, update tls s t th (·.put k v) ((v.map fun v => Ev.gave t (.val k v)).toList ++
              (old.map (dispose t k (s.table[k]? = some true))).toList) = some (s', es) → ∀ e ∈ es, ¬ (isSettled x e = true ∨ isLost x e = true) := by
            intro old hup
            rcases update_events hup with rfl | rfl
            · intro e he
              rcases List.mem_append.mp he with he | he
              · cases v with
                | none => cases he
                | some w => rw [List.mem_singleton.mp he]; simp [isSettled, isLost]
              · cases old with
                | none => cases he
                | some w => rw [List.mem_singleton.mp he]; exact hd _ _ _
            · exact hu
          unfold reset at h
          simp only at h
          repeat' split at h
          · cases h; nofun
          · exact up h
          · cases h; nofun
          · exact up h
          · unfold undef at h; cases h; exact hu
        · cases h

end Verif.TssProcess

namespace Verif.TssHooks

open TssProcess (St Op Ev Item init step stepS)

/-- What happens when threads start and end. -/
theorem log_threads {b : Build} {k : Kind} {ok reg : Bool} {hs : List Happening} (h : threadsOnly hs) (tl : List Happening) :
    log b k ok reg (hs ++ tl) = hs.map (fun h => (h, (told b ok reg (notes k h)).1)) ++ log b k ok reg tl := by
  induction hs with
  | nil => rfl
  | cons a hs ih =>
    have e : (told b ok reg (notes k a)).2 = reg := by
      obtain ⟨t, h | h⟩ := h a List.mem_cons_self <;> subst h <;> cases k <;> rfl
    have ih := ih fun x hx => h x (List.mem_cons_of_mem _ hx)
    simp only [List.cons_append, List.map_cons, log, e, ih]

theorem log_history {b : Build} {k : Kind} {ok : Bool} {hs : List Happening} {u : Nat} (h : threadsOnly hs) :
    log b k ok false (history hs u) =
      (.start 0, (told b ok false (notes k (.start 0))).1) ::
        (hs.map (fun h => (h, (told b ok (told b ok false (notes k (.start 0))).2 (notes k h)).1)) ++
         [(.finish u, (told b ok (told b ok false (notes k (.start 0))).2 (notes k (.finish u))).1)]) := by
  simp only [history, List.cons_append, log, log_threads h]

/-- What a list of threads starting and ending calls, and the rest. -/
theorem split_flat {A F : List Hook} {a c : List Hook} {x : Hook} (hA : x ∉ A) (h : A ++ F = a ++ x :: c) : ∃ a', F = a' ++ x :: c := by
  rcases List.append_eq_append_iff.mp h with ⟨as, rfl, h2⟩ | ⟨bs, rfl, h2⟩
  · exact ⟨as, h2⟩
  · cases bs with
    | nil => exact ⟨[], by simpa using h2.symm⟩
    | cons y bs => cases h2; exact absurd (by simp) hA

theorem good {b : Build} {k : Kind} {hs : List Happening} {u : Nat} (h : threadsOnly hs) (hb : b = .dll ∧ k = .dll ∨ b = .msvc) :
    Contract (log b k true false (history hs u)) := by
  rw [log_history h]
  have hreg : (told b true false (notes k (.start 0))).2 = decide (b = .msvc) := by
    rcases hb with ⟨rfl, rfl⟩ | rfl
    · rfl
    · cases k <;> rfl
  rw [hreg]
  generalize hT : hs.map (fun h => (h, (told b true (decide (b = .msvc)) (notes k h)).1)) = T
  have hmem : ∀ x ∈ T, ∃ t, (x.1 = .threadStart t ∧ .threadExit ∉ x.2 ∧ .processEnter ∉ x.2 ∧ .processExit ∉ x.2) ∨
      (x.1 = .threadEnd t ∧ .threadExit ∈ x.2 ∧ .processEnter ∉ x.2 ∧ .processExit ∉ x.2) := by
    intro x hx
    rw [← hT] at hx
    obtain ⟨a, ha, rfl⟩ := List.mem_map.mp hx
    obtain ⟨t, rfl | rfl⟩ := h a ha
    · refine ⟨t, .inl ⟨rfl, ?_⟩⟩
      rcases hb with ⟨rfl, rfl⟩ | rfl
      · simp [notes, told, hooks, registers, dllMain]
      · cases k <;> simp [notes, told, hooks, registers, onTls, dllCallback]
    · refine ⟨t, .inr ⟨rfl, ?_⟩⟩
      rcases hb with ⟨rfl, rfl⟩ | rfl
      · simp [notes, told, hooks, registers, dllMain]
      · cases k <;> simp [notes, told, hooks, registers, onTls, dllCallback]
  have hflat : ∀ x : Hook, x = .processEnter ∨ x = .processExit → x ∉ (T.map (·.2)).flatten := by
    intro x hx hm
    obtain ⟨l, hl, hxl⟩ := List.mem_flatten.mp hm
    obtain ⟨y, hy, rfl⟩ := List.mem_map.mp hl
    obtain ⟨t, ⟨_, _, h2, h3⟩ | ⟨_, _, h2, h3⟩⟩ := hmem y hy <;> rcases hx with rfl | rfl <;> contradiction
  clear hT
  refine ⟨fun t l hm => ?_, fun t l hm => ?_, fun a c he => ?_, fun a c he => ?_⟩
  · rcases List.mem_cons.mp hm with hm | hm
    · cases hm
    · rcases List.mem_append.mp hm with hm | hm
      · obtain ⟨_, ⟨h1, _⟩ | ⟨h1, h2, _⟩⟩ := hmem _ hm
        · cases h1
        · exact h2
      · cases List.mem_singleton.mp hm
  · rcases List.mem_cons.mp hm with hm | hm
    · cases hm
    · rcases List.mem_append.mp hm with hm | hm
      · obtain ⟨_, ⟨h1, _⟩ | ⟨h1, _⟩⟩ := hmem _ hm <;> cases h1
      · cases List.mem_singleton.mp hm
        rcases hb with ⟨rfl, rfl⟩ | rfl
        · exact ⟨[.threadExit], [], rfl, by simp⟩
        · cases k
          · exact ⟨[.threadExit], [], rfl, by simp⟩
          · exact ⟨[.threadExit], [.processExit], rfl, by simp⟩
  · simp only [List.map_cons, List.map_append, List.map_nil, List.flatten_cons, List.flatten_append, List.flatten_nil, List.append_nil] at he
    rw [← List.append_assoc] at he
    obtain ⟨a', e⟩ := split_flat (fun hm => by
      rcases List.mem_append.mp hm with hm | hm
      · rcases hb with ⟨rfl, rfl⟩ | rfl
        · simp [notes, told, hooks, registers, dllMain] at hm
        · cases k <;> simp [notes, told, hooks, registers, onTls, dllCallback] at hm
      · exact hflat _ (.inr rfl) hm) he
    have key : ∀ F : List Hook, (F = [.threadExit, .processExit] ∨ F = [.threadExit, .processExit, .processExit]) → F = a' ++ .processExit :: c →
        .threadExit ∉ c := by
      rintro F hF rfl
      match a' with
      | [] => rcases hF with h | h <;> simp at h
      | [_] => rcases hF with h | h <;> simp at h <;> simp [h]
      | [_, _] => rcases hF with h | h <;> simp at h <;> simp [h]
      | _ :: _ :: _ :: _ => rcases hF with h | h <;> simp at h
    refine key _ ?_ e
    rcases hb with ⟨rfl, rfl⟩ | rfl
    · exact .inl rfl
    · cases k
      · exact .inl rfl
      · exact .inr rfl
  · simp only [List.map_cons, List.map_append, List.map_nil, List.flatten_cons, List.flatten_append, List.flatten_nil, List.append_nil] at he
    intro hc
    -- the only `processEnter` is the first hook called
    have hS : (told b true false (notes k (.start 0))).1 = [.processEnter, .threadEnter] ∨ (told b true false (notes k (.start 0))).1 = [.processEnter] := by
      rcases hb with ⟨rfl, rfl⟩ | rfl
      · exact .inl rfl
      · cases k <;> exact .inr rfl
    have hF : .processEnter ∉ (told b true (decide (b = .msvc)) (notes k (.finish u))).1 := by
      rcases hb with ⟨rfl, rfl⟩ | rfl
      · simp [notes, told, hooks, registers, dllMain]
      · cases k <;> simp [notes, told, hooks, registers, onTls, dllCallback]
    have hrest : ∀ R : List Hook, R = (T.map (·.2)).flatten ++ (told b true (decide (b = .msvc)) (notes k (.finish u))).1 → .processEnter ∉ R := by
      rintro R rfl hm
      rcases List.mem_append.mp hm with hm | hm
      · exact hflat _ (.inl rfl) hm
      · exact hF hm
    have hcount := congrArg (List.count .processEnter) he
    rw [List.count_append, List.count_eq_zero.mpr (hrest _ rfl)] at hcount
    have h1 : 0 < c.count .processEnter := List.count_pos_iff.mpr hc
    have h2 : ∃ d, a ++ .threadEnter :: c = .processEnter :: d := by
      rcases hS with h | h <;> rw [h] at he <;> exact ⟨_, he.symm⟩
    obtain ⟨d, hd⟩ := h2
    cases a with
    | nil => cases hd
    | cons y a =>
      simp only [List.cons_append, List.cons.injEq] at hd
      obtain ⟨rfl, _⟩ := hd
      simp only [List.cons_append, List.count_cons, List.count_append, beq_self_eq_true, if_true] at hcount
      have h3 : (told b true false (notes k (.start 0))).1.count .processEnter = 1 := by rcases hS with h | h <;> rw [h] <;> rfl
      omega

/-- What a recent MinGW calls. -/
theorem mingw_calls {k : Kind} {ok : Bool} {hs : List Happening} {u : Nat} (h : threadsOnly hs) :
    (∀ t, calls (log .mingw k ok false (history hs u)) t .processExit = false) ∧
    (∀ m, .threadEnd m ∉ hs → calls (log .mingw k ok false (history hs u)) m .threadExit = false) ∧
    ¬ ProcessLeaves (log .mingw k ok false (history hs u)) := by
  have hT : ∀ (t : Nat) (x : Hook), (x = .threadExit → .threadEnd t ∉ hs) → x = .threadExit ∨ x = .processExit →
      calls (log .mingw k ok false (history hs u)) t x = false := by
    intro t x hx hx'
    rw [log_history h]
    simp only [calls, List.any_eq_false, Bool.and_eq_true, decide_eq_true_eq, not_and, List.contains_iff_mem]
    intro e he ht
    rcases List.mem_cons.mp he with rfl | he
    · cases k <;> rcases hx' with rfl | rfl <;> simp [notes, told, hooks, registers, onTls]
    · rcases List.mem_append.mp he with he | he
      · obtain ⟨a, ha, rfl⟩ := List.mem_map.mp he
        obtain ⟨v, rfl | rfl⟩ := h a ha
        · cases k <;> rcases hx' with rfl | rfl <;> simp [notes, told, hooks, registers, onTls]
        · rcases hx' with rfl | rfl
          · exact absurd (ht ▸ ha) (hx rfl)
          · cases k <;> simp [notes, told, hooks, registers, onTls]
      · rw [List.mem_singleton.mp he]
        cases k <;> rcases hx' with rfl | rfl <;> simp [notes, told, hooks, registers, onTls]
  refine ⟨fun t => hT t _ nofun (.inr rfl), fun m hm => hT m _ (fun _ => hm) (.inl rfl), fun hp => ?_⟩
  rw [log_history h] at hp
  obtain ⟨a, c, e, _⟩ := hp u _ (List.mem_cons_of_mem _ (List.mem_append_right _ List.mem_cons_self))
  cases k <;> simp [notes, told, hooks, registers, onTls] at e

theorem stepL_mingw {k : Kind} {ok : Bool} {hs : List Happening} {u : Nat} (h : threadsOnly hs) {tls : Bool} {s : St} {l : Nat × Op} {r : St × List Ev}
    (hr : stepL (log .mingw k ok false (history hs u)) tls s l = some r) :
    step tls s l = some r ∧ l.2 ≠ .processExit ∧ ∀ m, .threadEnd m ∉ hs → l ≠ (m, .threadExit) := by
  obtain ⟨h1, h2, _⟩ := mingw_calls (k := k) (ok := ok) (u := u) h
  obtain ⟨t, op⟩ := l
  unfold stepL at hr
  simp only at hr
  split at hr
  · split at hr
    · next hc =>
      refine ⟨hr, nofun, fun m hm e => ?_⟩
      cases e
      rw [h2 t hm] at hc; cases hc
    · cases hr
  · rw [h1 t] at hr; cases hr
  · next n1 n2 =>
    refine ⟨hr, n2, fun m _ e => ?_⟩
    cases e
    exact n1 rfl

/-- The invariant of a thread that never calls `on_thread_exit`. -/
theorem mingw_exec {k : Kind} {ok : Bool} {hs : List Happening} {u : Nat} (h : threadsOnly hs) {tls : Bool} {n : Nat} {tr : List Ev} {s : St}
    (he : Exec (stepL (log .mingw k ok false (history hs u)) tls) (init n) tr s) :
    Exec (stepS tls) (init n) tr s ∧ TssProcess.late s = false ∧
      ∀ m, .threadEnd m ∉ hs → ∀ th : TssProcess.Thread, s.threads[m]? = some th → th.job = none := by
  induction he with
  | init =>
    refine ⟨.init, rfl, fun m _ th hth => ?_⟩
    rw [get_replicate (n := n) (i := m) hth]
  | @snoc tr s s' l es _ hs' ih =>
    obtain ⟨ih1, ih2, ih3⟩ := ih
    obtain ⟨h1, h2, h3⟩ := stepL_mingw h hs'
    have hI := (TssProcess.inv_exec ih1).1
    have hO := TssProcess.origin_exec ih1 ih2
    obtain ⟨t, op⟩ := l
    simp only at h2
    have hS : stepS tls s (t, op) = some (s', es) := by
      unfold stepS
      rw [if_pos]
      · exact h1
      · rcases hO.early with e | e <;> simp [TssProcess.safe, e, h2]
    have hO' := (TssProcess.origin_step hI hO h2 h1).1
    refine ⟨ih1.snoc hS, TssProcess.late_iff.mpr hO'.early, fun m hm th hth => ?_⟩
    exact TssProcess.job_none_step (fun v hv => ih3 m hm v hv) (h3 m hm) h2 h1 th hth

end Verif.TssHooks
