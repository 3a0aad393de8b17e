import Verif.Proof.TssInv

/-! # delete_key, and the invariant over all executions -/

namespace Verif.Tss

/-- The context after `delete_key` has visited it. -/
def clearKey (k : Nat) (c : Ctx) : Ctx :=
  match c.storage[k]? with
  | some (some _) => { c with storage := c.storage.set k none }
  | _ => c

theorem takeKey_eq (k : Nat) (o : Option Ctx) : takeKey k o = (o.bind (getValue · k), o.map (clearKey k)) := by
  cases o with
  | none => rfl
  | some c =>
    simp only [takeKey, Option.bind_some, Option.map_some, getValue, clearKey]
    rcases h : c.storage[k]? with _ | _ | p <;> rfl

theorem clearKey_atExit (k c) : (clearKey k c).atExit = c.atExit := by unfold clearKey; split <;> rfl
theorem clearKey_notify (k c) : (clearKey k c).notify = c.notify := by unfold clearKey; split <;> rfl
theorem clearKey_length (k c) : (clearKey k c).storage.length = c.storage.length := by unfold clearKey; split <;> simp

theorem clearKey_get (k c j) : getValue (clearKey k c) j = if j = k then none else getValue c j := by
  unfold clearKey
  split
  · next p hp =>
    have hl := (List.getElem?_eq_some_iff.mp hp).1
    unfold getValue
    dsimp only
    rw [List.getElem?_set]
    by_cases hj : j = k
    · subst hj; simp [hl]
    · simp [hj, Ne.symm hj]
  · next hne =>
    by_cases hj : j = k
    · subst hj
      rw [if_pos rfl]
      cases hg : getValue c j with
      | none => rfl
      | some p => exact absurd (getValue_iff.mp hg) (hne p)
    · rw [if_neg hj]

def clearThread (k : Nat) (th : Thread) : Thread := { th with slot := th.slot.map (clearKey k), dying := th.dying.map (clearKey k) }

def takenFrom (k : Nat) (th : Thread) : List Ptr := (th.slot.bind (getValue · k)).toList ++ (th.dying.bind (getValue · k)).toList

theorem takeThread_eq (k th) : takeThread k th = (takenFrom k th, clearThread k th) := by
  simp [takeThread, takeKey_eq, takenFrom, clearThread]

theorem takeAll_eq (k : Nat) (ths : List Thread) : takeAll k ths = (ths.flatMap (takenFrom k), ths.map (clearThread k)) := by
  induction ths with
  | nil => rfl
  | cons th ths ih => simp [takeAll, ih, takeThread_eq]

theorem mem_takenFrom {k th p} (h : p ∈ takenFrom k th) :
    (∃ c, th.slot = some c ∧ getValue c k = some p) ∨ (∃ c, th.dying = some c ∧ getValue c k = some p) := by
  unfold takenFrom at h
  rw [List.mem_append] at h
  rcases h with h | h
  · left
    cases hs : th.slot with
    | none => rw [hs] at h; simp at h
    | some c => rw [hs] at h; exact ⟨c, rfl, by simpa [Option.mem_toList] using h⟩
  · right
    cases hs : th.dying with
    | none => rw [hs] at h; simp at h
    | some c => rw [hs] at h; exact ⟨c, rfl, by simpa [Option.mem_toList] using h⟩

theorem clearThread_ph (k th) : (clearThread k th).ph = th.ph := rfl

/-- What `deleteKey` does, by cases. -/
inductive Deleted (s : St) (t o : Nat) (ob : Obj) : St → List Ev → Prop
  | keep : ob.atDelete = false →
      Deleted s t o ob { s with objs := s.objs.set o { ob with live := false } } [.destroyed o]
  | run : ob.atDelete = true → ob.cleanup = true →
      Deleted s t o ob
        { objs := s.objs.set o { ob with live := false }, table := s.table.set ob.key ⟨none, true⟩, freed := ob.key :: s.freed
          threads := addTodo (s.threads.map (clearThread ob.key)) t ((s.threads.flatMap (takenFrom ob.key)).map fun p => (o, p)) }
        [.destroyed o]
  | forget : ob.atDelete = true → ob.cleanup = false →
      Deleted s t o ob
        { objs := s.objs.set o { ob with live := false }, table := s.table.set ob.key ⟨none, true⟩, freed := ob.key :: s.freed
          threads := s.threads.map (clearThread ob.key) }
        (.destroyed o :: (s.threads.flatMap (takenFrom ob.key)).map (Ev.dropped t))

theorem deleted_of_deleteKey {s : St} {t o : Nat} {ob : Obj} (h : Tab s.objs s.table s.freed) (ho : s.objs[o]? = some ob) (hl : ob.live = true) :
    Deleted s t o ob (deleteKey s t o ob).1 (deleteKey s t o ob).2 := by
  have hk := h.key o ob ho (.inl hl)
  obtain ⟨key, live, cleanup, atDelete⟩ := ob
  dsimp only at hk
  unfold deleteKey
  simp only [hk]
  cases atDelete with
  | false => simp only [Bool.false_eq_true, if_false]; exact .keep rfl
  | true =>
    simp only [if_true]
    cases cleanup with
    | true => simp only [if_true, takeAll_eq]; exact .run rfl rfl
    | false => simp only [Bool.false_eq_true, if_false, takeAll_eq]; exact .forget rfl rfl

theorem objs_set {objs : List Obj} {o i : Nat} {ob x y : Obj} (_ho : objs[o]? = some ob) (hi : (objs.set o x)[i]? = some y) :
    (i = o ∧ y = x) ∨ (i ≠ o ∧ objs[i]? = some y) := by
  rw [List.getElem?_set] at hi
  split at hi
  · next e => subst e; split at hi <;> cases hi; exact .inl ⟨rfl, rfl⟩
  · next e => exact .inr ⟨Ne.symm e, hi⟩

theorem get_objs_set {objs : List Obj} {o i : Nat} {x y : Obj} (hne : i ≠ o) (hi : objs[i]? = some y) : (objs.set o x)[i]? = some y := by
  rw [List.getElem?_set, if_neg (Ne.symm hne)]; exact hi

theorem get_objs_set_self {objs : List Obj} {o : Nat} {x y : Obj} (hi : objs[o]? = some y) : (objs.set o x)[o]? = some x := by
  rw [List.getElem?_set]; simp [(List.getElem?_eq_some_iff.mp hi).1]

theorem tab_deleted {s s' : St} {t o : Nat} {ob : Obj} {es} (h : Tab s.objs s.table s.freed) (ho : s.objs[o]? = some ob) (hl : ob.live = true)
    (hd : Deleted s t o ob s' es) : Tab s'.objs s'.table s'.freed := by
  have hkey := h.key_lt ho (.inl hl)
  have hfree : ob.key ∉ s.freed := fun hm => (h.freed _ hm).2 o ob ho (.inl hl) rfl
  -- after the deletion of an object whose values do not outlive it
  have gone : ob.atDelete = true → Tab (s.objs.set o { ob with live := false }) (s.table.set ob.key ⟨none, true⟩) (ob.key :: s.freed) := by
    intro had
    have old : ∀ (i : Nat) y, (s.objs.set o { ob with live := false })[i]? = some y → y.holding → i ≠ o ∧ s.objs[i]? = some y ∧ y.key ≠ ob.key := by
      intro i y hi hh
      rcases objs_set ho hi with ⟨_, rfl⟩ | ⟨hne, hi⟩
      · rcases hh with hh | hh
        · cases hh
        · simp [had] at hh
      · exact ⟨hne, hi, fun he => hne (h.uniq i o y ob hi ho hh (.inl hl) he)⟩
    refine ⟨?_, ?_, ?_, List.nodup_cons.mpr ⟨hfree, h.nodup⟩⟩
    · intro i y hi hh
      obtain ⟨_, hi, hk⟩ := old i y hi hh
      rw [List.getElem?_set, if_neg (Ne.symm hk)]
      exact h.key i y hi hh
    · intro i j y z hi hj hy hz he
      exact h.uniq i j y z (old i y hi hy).2.1 (old j z hj hz).2.1 hy hz he
    · intro k hk
      rcases List.mem_cons.mp hk with rfl | hk
      · exact ⟨by simpa using hkey, fun i y hi hh => (old i y hi hh).2.2⟩
      · obtain ⟨a, b⟩ := h.freed k hk
        exact ⟨by simpa using a, fun i y hi hh => b i y (old i y hi hh).2.1 hh⟩
  cases hd with
  | run h1 _ => exact gone h1
  | forget h1 _ => exact gone h1
  | keep had =>
    have old : ∀ (i : Nat) y, (s.objs.set o { ob with live := false })[i]? = some y → y.holding →
        ∃ y', s.objs[i]? = some y' ∧ y'.holding ∧ y'.key = y.key ∧ y'.cleanup = y.cleanup ∧ y'.atDelete = y.atDelete := by
      intro i y hi hh
      rcases objs_set ho hi with ⟨rfl, rfl⟩ | ⟨hne, hi⟩
      · exact ⟨ob, ho, .inl hl, rfl, rfl, rfl⟩
      · exact ⟨y, hi, hh, rfl, rfl, rfl⟩
    refine ⟨?_, ?_, ?_, h.nodup⟩
    · intro i y hi hh
      obtain ⟨y', h1, h2, h3, h4, h5⟩ := old i y hi hh
      rw [← h3, ← h4, ← h5]; exact h.key i y' h1 h2
    · intro i j y z hi hj hy hz he
      obtain ⟨y', h1, h2, h3, _⟩ := old i y hi hy
      obtain ⟨z', g1, g2, g3, _⟩ := old j z hj hz
      exact h.uniq i j y' z' h1 g1 h2 g2 (by rw [h3, g3, he])
    · intro k hk
      obtain ⟨a, b⟩ := h.freed k hk
      refine ⟨a, fun i y hi hh => ?_⟩
      obtain ⟨y', h1, h2, h3, _⟩ := old i y hi hh
      rw [← h3]; exact b i y' h1 h2

theorem owner_deleted {objs : List Obj} {o : Nat} {ob : Obj} (ho : objs[o]? = some ob) {k p} (hk : k ≠ ob.key ∨ ob.atDelete = false)
    (h : Owner objs k p) : Owner (objs.set o { ob with live := false }) k p := by
  obtain ⟨y, h1, h2, h3⟩ := h
  by_cases hp : p.obj = o
  · rw [hp, ho] at h1
    cases h1
    rcases hk with hk | hk
    · exact absurd h3.symm hk
    · exact ⟨{ ob with live := false }, by rw [hp]; exact get_objs_set_self ho, .inr hk, h3⟩
  · exact ⟨y, get_objs_set hp h1, h2, h3⟩

theorem ctxOk_clear {objs : List Obj} {table table' : List Info} {o : Nat} {ob : Obj} {c : Ctx} (ho : objs[o]? = some ob)
    (hl : table.length ≤ table'.length) (h : CtxOk objs table c) :
    CtxOk (objs.set o { ob with live := false }) table' (clearKey ob.key c) := by
  refine ⟨by rw [clearKey_length]; exact Nat.le_trans h.len hl, fun k p hp => ?_⟩
  rw [← getValue_iff, clearKey_get] at hp
  split at hp
  · cases hp
  · next hk => exact owner_deleted ho (.inl hk) (h.owner k p (getValue_iff.mp hp))

theorem todo_deleted {objs : List Obj} {o : Nat} {ob : Obj} (ho : objs[o]? = some ob) {p : Ptr}
    (h : ∃ y, objs[p.obj]? = some y ∧ y.cleanup = true) : ∃ y, (objs.set o { ob with live := false })[p.obj]? = some y ∧ y.cleanup = true := by
  obtain ⟨y, h1, h2⟩ := h
  by_cases hp : p.obj = o
  · rw [hp, ho] at h1; cases h1; rw [hp]; exact ⟨_, get_objs_set_self ho, h2⟩
  · exact ⟨y, get_objs_set hp h1, h2⟩

theorem ti_clear {cfg objs table table' th} {o : Nat} {ob : Obj} (ho : objs[o]? = some ob) (hl : table.length ≤ table'.length)
    (h : TI cfg objs table th) : TI cfg (objs.set o { ob with live := false }) table' (clearThread ob.key th) := by
  refine ⟨fun c hc => ?_, fun c hc => ?_, fun k pend r hp => Nat.le_trans (h.pend k pend r hp) hl, fun c p hm => ⟨(h.todo c p hm).1, todo_deleted ho (h.todo c p hm).2⟩,
    h.posix, fun r hr => ?_, fun e1 e2 => ?_, fun e => ?_, fun c hc => ?_, h.cb, h.idle⟩
  · simp only [clearThread, Option.map_eq_some_iff] at hc
    obtain ⟨c', h1, rfl⟩ := hc
    exact ctxOk_clear ho hl (h.slot c' h1)
  · simp only [clearThread, Option.map_eq_some_iff] at hc
    obtain ⟨c', h1, rfl⟩ := hc
    exact ctxOk_clear ho hl (h.dying c' h1)
  · have := h.pthread r hr
    simp only [clearThread, ne_eq, Option.map_eq_none_iff]; exact this
  · have := h.win e1 e2
    simp only [clearThread, ne_eq, Option.map_eq_none_iff]; exact this
  · have := h.noDying e
    simp only [clearThread, Option.map_eq_none_iff]; exact this
  · simp only [clearThread, Option.map_eq_some_iff] at hc
    obtain ⟨c', h1, rfl⟩ := hc
    rw [clearKey_atExit]; exact h.dyingEmpty c' h1

theorem ti_keep {cfg objs table th} {o : Nat} {ob : Obj} (ho : objs[o]? = some ob) (hk : ob.atDelete = false)
    (h : TI cfg objs table th) : TI cfg (objs.set o { ob with live := false }) table th :=
  { h with
    slot := fun c hc => ctxOk_mono (Nat.le_refl _) (fun _ _ _ => owner_deleted ho (.inr hk)) (h.slot c hc)
    dying := fun c hc => ctxOk_mono (Nat.le_refl _) (fun _ _ _ => owner_deleted ho (.inr hk)) (h.dying c hc)
    todo := fun c p hm => ⟨(h.todo c p hm).1, todo_deleted ho (h.todo c p hm).2⟩ }

theorem ti_addTodo {cfg objs table th} {l : List (Nat × Ptr)} (h : TI cfg objs table th) (hu : userCode th = true)
    (hl : ∀ c p, (c, p) ∈ l → c = p.obj ∧ ∃ ob, objs[p.obj]? = some ob ∧ ob.cleanup = true) : TI cfg objs table { th with todo := l ++ th.todo } :=
  { h with
    todo := fun c p hm => by
      rcases List.mem_append.mp hm with hm | hm
      · exact hl c p hm
      · exact h.todo c p hm
    idle := fun h1 h2 => by
      unfold userCode at hu
      rw [Bool.or_eq_true] at hu
      rcases hu with hu | hu
      · exact absurd (by simpa using hu) h1
      · rw [h.cb hu] at h2; cases h2 }

/-- Values found by `delete_key` belong to the object. -/
theorem taken_owner {cfg objs table fr th} {o : Nat} {ob : Obj} (htab : Tab objs table fr) (ho : objs[o]? = some ob) (hl : ob.live = true)
    (h : TI cfg objs table th) {p} (hp : p ∈ takenFrom ob.key th) : p.obj = o := by
  have : Owner objs ob.key p := by
    rcases mem_takenFrom hp with ⟨c, h1, h2⟩ | ⟨c, h1, h2⟩
    · exact (h.slot c h1).owner _ _ (getValue_iff.mp h2)
    · exact (h.dying c h1).owner _ _ (getValue_iff.mp h2)
  obtain ⟨y, h1, h2, h3⟩ := this
  exact htab.uniq p.obj o y ob h1 ho h2 (.inl hl) h3

theorem get_addTodo {ths : List Thread} {t i : Nat} {l : List (Nat × Ptr)} {th : Thread} (h : (addTodo ths t l)[i]? = some th) :
    ∃ th', ths[i]? = some th' ∧ ((i = t ∧ th = { th' with todo := l ++ th'.todo }) ∨ (i ≠ t ∧ th = th')) := by
  unfold addTodo at h
  rw [List.getElem?_modify] at h
  cases hi : ths[i]? with
  | none => rw [hi] at h; simp at h
  | some th' =>
    rw [hi] at h
    refine ⟨th', rfl, ?_⟩
    by_cases e : t = i
    · left; subst e; simp at h; exact ⟨rfl, h.symm⟩
    · right; simp [e] at h; exact ⟨Ne.symm e, h.symm⟩

structure Inv (cfg : Cfg) (s : St) : Prop where
  tab : Tab s.objs s.table s.freed
  thr : ∀ (t : Nat) (th : Thread), s.threads[t]? = some th → TI cfg s.objs s.table th

theorem inv_init (cfg n) : Inv cfg (init n) := by
  refine ⟨⟨by simp [init], by simp [init], by simp [init], by simp [init]⟩, fun t th h => ?_⟩
  have := get_replicate h
  subst this
  exact ⟨by simp, by simp, by simp, by simp, fun _ => rfl, fun _ _ => by simp [exitPhase], by simp [cbPhase], fun _ => rfl, by simp, by simp, by simp⟩

theorem inv_deleted {cfg} {s s' : St} {t o : Nat} {ob : Obj} {th : Thread} {es} (h : Inv cfg s) (hth : s.threads[t]? = some th)
    (hu : userCode th = true) (ho : s.objs[o]? = some ob) (hl : ob.live = true) (hd : Deleted s t o ob s' es) : Inv cfg s' ∧ Ev.ub ∉ es := by
  refine ⟨⟨tab_deleted h.tab ho hl hd, fun i th' hi => ?_⟩, ?_⟩
  · cases hd with
    | keep hk => exact ti_keep ho hk (h.thr i th' hi)
    | forget _ _ =>
      simp only [List.getElem?_map, Option.map_eq_some_iff] at hi
      obtain ⟨th₀, h1, rfl⟩ := hi
      exact ti_clear ho (by simp) (h.thr i th₀ h1)
    | run _ hc =>
      obtain ⟨th₁, h1, h2⟩ := get_addTodo hi
      simp only [List.getElem?_map, Option.map_eq_some_iff] at h1
      obtain ⟨th₀, h3, rfl⟩ := h1
      have hti := ti_clear (table' := s.table.set ob.key ⟨none, true⟩) ho (by simp) (h.thr i th₀ h3)
      rcases h2 with ⟨rfl, rfl⟩ | ⟨_, rfl⟩
      · rw [hth] at h3
        cases h3
        refine ti_addTodo hti hu ?_
        intro c p hm
        rw [List.mem_map] at hm
        obtain ⟨q, hq, e⟩ := hm
        cases e
        rw [List.mem_flatMap] at hq
        obtain ⟨th₂, hm2, hq⟩ := hq
        obtain ⟨j, hj⟩ := List.mem_iff_getElem?.mp hm2
        have := taken_owner h.tab ho hl (h.thr j th₂ hj) hq
        exact ⟨this.symm, by rw [this]; exact ⟨_, get_objs_set_self ho, hc⟩⟩
      · exact hti
  · cases hd <;> simp

theorem inv_step {cfg} {s s' : St} {l : Nat × Op} {es} (h : Inv cfg s) (hs : step cfg s l = some (s', es)) : Inv cfg s' ∧ Ev.ub ∉ es := by
  obtain ⟨t, op⟩ := l
  cases sstep_of_step hs with
  | localStep hth hl =>
    obtain ⟨a, b⟩ := ti_local h.tab (h.thr _ _ hth) hl
    refine ⟨⟨h.tab, fun i th' hi => ?_⟩, b⟩
    dsimp only at hi
    rcases get_set_cases hi with ⟨_, rfl⟩ | ⟨_, hi⟩
    · exact a
    · exact h.thr i th' hi
  | create hth hu hn =>
    obtain ⟨h1, h2, h3, h4, k, h5, _⟩ := tab_newKey h.tab hn
    refine ⟨⟨h1, fun i th' hi => ?_⟩, by rw [h3]; simp⟩
    rw [h2] at hi
    rw [h5]
    exact ti_create h4 (h.thr i th' hi)
  | destroy hth hu ho hl => exact inv_deleted h hth hu ho hl (deleted_of_deleteKey h.tab ho hl)

theorem inv_exec {cfg n tr s} (h : Exec (step cfg) (init n) tr s) : Inv cfg s ∧ Ev.ub ∉ tr := by
  refine Exec.invariant (fun tr s => Inv cfg s ∧ Ev.ub ∉ tr) ⟨inv_init cfg n, by simp⟩ ?_ h
  intro tr s l s' es ⟨h1, h2⟩ hs
  obtain ⟨h3, h4⟩ := inv_step h1 hs
  exact ⟨h3, by simp [h2, h4]⟩

end Verif.Tss
