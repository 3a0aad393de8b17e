import Verif.Base.Count
import Verif.Spec.CondVarPosix

/-! Invariants of the model of condition_variable for pthreads. -/

namespace Verif.CondVarPosix

variable {D : Type}

/-- The mutex is held by a thread at this point of a wait. -/
def PC.holds : PC D → Bool
  | .test _ _ | .clock _ | .block _ _ | .last _ => true
  | _ => false

/-- The mutex is not held by a thread at this point of a wait. -/
def PC.away : PC D → Bool
  | .asleep _ _ | .wake _ _ _ => true
  | _ => false

/-- What the events say about the wait of a thread at this point. -/
def Match (c : Option (Call D)) : PC D → Prop
  | .idle => c = none
  | .test k p => ∃ e w, c = some ⟨k, some p, e, w⟩
  | .clock p => ∃ e w, c = some ⟨.clocked, p, e, w⟩
  | .block k p | .asleep k p => ∃ e w, c = some ⟨k, p, e, w⟩
  | .wake k p .ok => ∃ e, c = some ⟨k, p, e, true⟩
  | .wake k p .timeout => k ≠ .plain ∧ ∃ e w, c = some ⟨k, p, e, w⟩
  | .wake k p .interrupted => ∃ e w, c = some ⟨k, p, e, w⟩
  | .last p => ∃ k w, k ≠ .plain ∧ c = some ⟨k, some p, true, w⟩

structure Good (o : Option Nat) (c : Option (Call D)) (t : Nat) (pc : PC D) : Prop where
  holds : pc.holds = true → o = some t
  away : pc.away = true → o ≠ some t
  call : Match c pc

structure Inv (d₀ : D) (tr : List (Ev D)) (s : St D) : Prop where
  owner : ownerOf tr = s.owner
  data : dataOf d₀ tr = s.data
  good : ∀ (t : Nat) pc, s.ths[t]? = some pc → Good s.owner (callOf tr t) t pc

theorem ownerOf_append (tr es : List (Ev D)) : ownerOf (tr ++ es) = es.foldl ownerUpd (ownerOf tr) := List.foldl_append
theorem dataOf_append (d : D) (tr es : List (Ev D)) : dataOf d (tr ++ es) = es.foldl dataUpd (dataOf d tr) := List.foldl_append
theorem callOf_append (tr es : List (Ev D)) (t : Nat) : callOf (tr ++ es) t = es.foldl (callUpd t) (callOf tr t) :=
  List.foldl_append
theorem owed_append (tr es : List (Ev D)) : owed (tr ++ es) = es.foldl owedUpd (owed tr) := List.foldl_append

theorem inv_init (n : Nat) (d : D) : Inv d [] (init n d) where
  owner := rfl
  data := rfl
  good := by
    intro t pc h
    rw [get_replicate h]
    exact ⟨nofun, nofun, rfl⟩

/-- The event is not of another thread and not a notification. -/
def Ev.own (t : Nat) : Ev D → Bool
  | .locked u | .unlocked u | .updated u _ | .called u _ _ | .slept u | .spurious u | .interrupted u | .expired u
  | .relocked u | .ret u _ | .threw u => u == t
  | .notified _ _ ws => ws.isEmpty

theorem callUpd_own {t u : Nat} (hu : t ≠ u) {es : List (Ev D)} (he : ∀ e ∈ es, e.own t = true) :
    ∀ c, es.foldl (callUpd u) c = c := by
  induction es with
  | nil => intro c; rfl
  | cons e es ih =>
    intro c
    rw [List.foldl_cons, ih fun e h => he e (List.mem_cons_of_mem _ h)]
    have := he e List.mem_cons_self
    cases e <;> simp only [Ev.own, beq_iff_eq, List.isEmpty_iff] at this <;> subst this <;> simp [callUpd, hu]

/-- A step of thread `t` that concerns nobody else. -/
theorem inv_move {d₀ : D} {tr es : List (Ev D)} {s : St D} {t : Nat} {pc pc' : PC D} {o' : Option Nat} {d' : D}
    (I : Inv d₀ tr s) (ht : s.ths[t]? = some pc) (he : ∀ e ∈ es, e.own t = true)
    (h1 : es.foldl ownerUpd s.owner = o') (h2 : es.foldl dataUpd s.data = d')
    (h3 : Good o' (es.foldl (callUpd t) (callOf tr t)) t pc')
    (h4 : o' = s.owner ∨ (s.owner = some t ∧ o' = none) ∨ (s.owner = none ∧ o' = some t)) :
    Inv d₀ (tr ++ es) ⟨o', d', s.ths.set t pc'⟩ where
  owner := by rw [ownerOf_append, I.owner, h1]
  data := by rw [dataOf_append, I.data, h2]
  good := by
    intro u x hx
    simp only at hx ⊢
    by_cases hut : t = u
    · subst hut
      rw [get_set_self ht] at hx
      cases hx
      rw [callOf_append]
      exact h3
    · rw [get_set_ne hut] at hx
      have g := I.good u x hx
      rw [callOf_append, callUpd_own hut he]
      refine ⟨?_, ?_, g.call⟩
      · intro h
        have h := g.holds h
        rcases h4 with h4 | ⟨h4, _⟩ | ⟨h4, _⟩
        · rw [h4]; exact h
        · rw [h] at h4; cases h4; exact absurd rfl hut
        · rw [h] at h4; cases h4
      · intro h
        have h := g.away h
        rcases h4 with h4 | ⟨_, h4⟩ | ⟨_, h4⟩
        · rw [h4]; exact h
        · rw [h4]; intro h; cases h
        · rw [h4]; intro h; cases h; exact hut rfl

theorem set_same {α : Type} {l : List α} {i : Nat} {a : α} (h : l[i]? = some a) : l.set i a = l := by
  apply List.ext_getElem?
  intro j
  by_cases hij : i = j
  · subst hij; rw [get_set_self h, h]
  · rw [get_set_ne hij]

theorem mem_sleepers {ths : List (PC D)} {u : Nat} : u ∈ sleepers ths ↔ ∃ k p, ths[u]? = some (.asleep k p) := by
  simp only [sleepers, List.mem_filter, List.mem_range]
  constructor
  · rintro ⟨_, h⟩
    split at h
    · next pc hpc =>
      cases pc <;> simp only [PC.isAsleep, Bool.false_eq_true] at h
      exact ⟨_, _, hpc⟩
    · cases h
  · rintro ⟨k, p, h⟩
    exact ⟨(List.getElem?_eq_some_iff.mp h).1, by rw [h]; rfl⟩

/-- What a notification does to thread `u`. -/
theorem notify_good {o : Option Nat} {c : Option (Call D)} {u : Nat} {k : Kind} {p : Option (D → Bool)}
    (g : Good o c u (.asleep k p)) : Good o (c.map fun c => { c with woken := true }) u (.wake k p .ok) where
  holds := nofun
  away := by intro _; exact g.away rfl
  call := by
    obtain ⟨e, w, rfl⟩ := g.call
    exact ⟨e, rfl⟩

theorem begin_good {t : Nat} {k : Kind} {p : Option (D → Bool)} {e w : Bool} :
    Good (some t) (some ⟨k, p, e, w⟩) t (begin k p) := by
  unfold begin
  split
  · next h => subst h; exact ⟨fun _ => rfl, nofun, _, _, rfl⟩
  · exact ⟨fun _ => rfl, nofun, _, _, rfl⟩

theorem inv_step {bug : Bool} {d₀ : D} {tr es : List (Ev D)} {s s' : St D} {l : Nat × Act D} (I : Inv d₀ tr s)
    (hs : step bug s l = some (s', es)) : Inv d₀ (tr ++ es) s' := by
  obtain ⟨t, a⟩ := l
  unfold step at hs
  simp only at hs
  split at hs
  · cases hs
  next pc ht =>
  have g := I.good t pc ht
  split at hs
  -- lock, unlock, update
  · split at hs
    · next ho =>
      cases hs
      have := inv_move (es := [.locked t]) (o' := some t) (d' := s.data) I ht (by simp [Ev.own]) rfl rfl
        (pc' := .idle) ⟨nofun, nofun, g.call⟩ (Or.inr (Or.inr ⟨ho, rfl⟩))
      rw [set_same ht] at this
      exact this
    · cases hs
  · split at hs
    · next ho =>
      cases hs
      have := inv_move (es := [.unlocked t]) (o' := none) (d' := s.data) I ht (by simp [Ev.own]) rfl rfl
        (pc' := .idle) ⟨nofun, nofun, g.call⟩ (Or.inr (Or.inl ⟨ho, rfl⟩))
      rw [set_same ht] at this
      exact this
    · cases hs
  · split at hs
    · next d ho =>
      cases hs
      have := inv_move (es := [.updated t d]) (o' := s.owner) (d' := d) I ht (by simp [Ev.own]) rfl rfl
        (pc' := .idle) ⟨nofun, nofun, g.call⟩ (Or.inl rfl)
      rw [set_same ht] at this
      exact this
    · cases hs
  -- wait
  · split at hs
    · next k ho =>
      cases hs
      refine inv_move I ht (by simp [Ev.own]) rfl rfl ?_ (Or.inl rfl)
      simp only [List.foldl, callUpd, if_true, ho]
      exact begin_good
    · cases hs
  · split at hs
    · next k p ho =>
      cases hs
      refine inv_move I ht (by simp [Ev.own]) rfl rfl ⟨fun _ => ho, nofun, ?_⟩ (Or.inl rfl)
      simp [callUpd, Match]
    · cases hs
  -- notify_one
  · next u =>
    split at hs
    · next k p hu =>
      cases hs
      refine ⟨by rw [ownerOf_append]; exact I.owner, by rw [dataOf_append]; exact I.data, ?_⟩
      intro v x hx
      simp only at hx ⊢
      rw [callOf_append]
      rcases get_set_cases hx with ⟨rfl, rfl⟩ | ⟨huv, hx⟩
      · simp only [List.foldl, callUpd, List.mem_singleton, if_true]
        exact notify_good (I.good u _ hu)
      · simp only [List.foldl, callUpd, List.mem_singleton, if_neg (Ne.symm huv)]
        exact I.good v x hx
    · cases hs
  · split at hs
    · cases hs
    · cases hs
      refine ⟨by rw [ownerOf_append]; exact I.owner, by rw [dataOf_append]; exact I.data, ?_⟩
      intro v x hx
      rw [callOf_append]
      simp only [List.foldl, callUpd, List.not_mem_nil, if_false]
      exact I.good v x hx
  -- notify_all
  · cases hs
    refine ⟨by rw [ownerOf_append]; exact I.owner, by rw [dataOf_append]; exact I.data, ?_⟩
    intro v x hx
    simp only [List.getElem?_map] at hx
    rw [callOf_append]
    simp only [List.foldl, callUpd]
    cases hv : s.ths[v]? with
    | none => rw [hv] at hx; cases hx
    | some y =>
      rw [hv] at hx
      simp only [Option.map_some, Option.some.injEq] at hx
      subst hx
      have gv := I.good v y hv
      by_cases hm : v ∈ sleepers s.ths
      · rw [if_pos hm]
        obtain ⟨k, p, hk⟩ := mem_sleepers.mp hm
        rw [hv] at hk
        cases hk
        exact notify_good gv
      · rw [if_neg hm]
        cases y with
        | asleep k p => exact absurd (mem_sleepers.mpr ⟨k, p, hv⟩) hm
        | _ => exact gv
  -- test
  · next k p =>
    have ho := g.holds rfl
    obtain ⟨e, w, hc⟩ := g.call
    split at hs
    · cases hs
      refine inv_move I ht (by simp [Ev.own]) rfl rfl ⟨nofun, nofun, ?_⟩ (Or.inl rfl)
      simp [callUpd, Match]
    · cases hs
      refine inv_move I ht (by simp [Ev.own]) rfl rfl ?_ (Or.inl rfl)
      simp only [List.foldl, ho, hc]
      exact begin_good
  · cases hs
    refine inv_move I ht (by simp [Ev.own]) rfl rfl ⟨nofun, nofun, ?_⟩ (Or.inl rfl)
    simp [callUpd, Match]
  -- clock
  · cases hs
    exact inv_move I ht (by simp [Ev.own]) rfl rfl ⟨fun _ => g.holds rfl, nofun, g.call⟩ (Or.inl rfl)
  · cases hs
    refine inv_move I ht (by simp [Ev.own]) rfl rfl ⟨nofun, nofun, ?_⟩ (Or.inl rfl)
    simp [callUpd, Match]
  · next p =>
    cases hs
    refine inv_move I ht (by simp [Ev.own]) rfl rfl ⟨fun _ => g.holds rfl, nofun, ?_⟩ (Or.inl rfl)
    obtain ⟨e, w, hc⟩ := g.call
    simp [callUpd, Match, hc]
  -- block
  · next k p =>
    cases hs
    refine inv_move I ht (by simp [Ev.own]) rfl rfl ⟨nofun, fun _ => by simp, g.call⟩ (Or.inr (Or.inl ⟨g.holds rfl, rfl⟩))
  · cases hs
    refine inv_move I ht (by simp [Ev.own]) rfl rfl ⟨nofun, nofun, ?_⟩ (Or.inl rfl)
    simp [callUpd, Match]
  -- asleep
  · next k p =>
    cases hs
    refine inv_move I ht (by simp [Ev.own]) rfl rfl ⟨nofun, fun _ => g.away rfl, ?_⟩ (Or.inl rfl)
    obtain ⟨e, w, hc⟩ := g.call
    simp [callUpd, Match, hc]
  · next k p =>
    split at hs
    · cases hs
    · next hk =>
      cases hs
      exact inv_move I ht (by simp [Ev.own]) rfl rfl ⟨nofun, fun _ => g.away rfl, hk, g.call⟩ (Or.inl rfl)
  · split at hs
    · cases hs
      exact inv_move I ht (by simp [Ev.own]) rfl rfl ⟨nofun, fun _ => g.away rfl, g.call⟩ (Or.inl rfl)
    · cases hs
  -- wake
  · next k p r =>
    split at hs
    · next ho =>
      have h4 : (some t = s.owner) ∨ (s.owner = some t ∧ some t = none) ∨ (s.owner = none ∧ some t = some t) :=
        Or.inr (Or.inr ⟨ho, rfl⟩)
      have hc := g.call
      split at hs
      · cases hs
        refine inv_move I ht (by simp [Ev.own]) rfl rfl ⟨nofun, nofun, ?_⟩ h4
        simp [callUpd, Match]
      · cases hs
        refine inv_move I ht (by simp [Ev.own]) rfl rfl ⟨fun _ => rfl, nofun, ?_⟩ h4
        obtain ⟨e, hc⟩ := hc
        simp [callUpd, Match, hc]
      · cases hs
        refine inv_move I ht (by simp [Ev.own]) rfl rfl ⟨fun _ => rfl, nofun, ?_⟩ h4
        obtain ⟨_, e, w, hc⟩ := hc
        simp [callUpd, Match, hc]
      · cases hs
        refine inv_move I ht (by simp [Ev.own]) rfl rfl ⟨nofun, nofun, ?_⟩ h4
        simp [callUpd, Match]
      · cases hs
        refine inv_move I ht (by simp [Ev.own]) rfl rfl ⟨fun _ => rfl, nofun, ?_⟩ h4
        obtain ⟨hk, e, w, hc⟩ := hc
        simp [callUpd, Match, hc, hk]
      · cases hs
        refine inv_move I ht (by simp [Ev.own]) rfl rfl ⟨fun _ => rfl, nofun, ?_⟩ h4
        obtain ⟨e, w, hc⟩ := hc
        simp [callUpd, Match, hc]
    · cases hs
  -- last
  · cases hs
    refine inv_move I ht (by simp [Ev.own]) rfl rfl ⟨nofun, nofun, ?_⟩ (Or.inl rfl)
    simp [callUpd, Match]
  · cases hs
    refine inv_move I ht (by simp [Ev.own]) rfl rfl ⟨nofun, nofun, ?_⟩ (Or.inl rfl)
    simp [callUpd, Match]
  · cases hs

theorem inv_exec {bug : Bool} {n : Nat} {d₀ : D} {tr : List (Ev D)} {s : St D} (h : Exec (step bug) (init n d₀) tr s) :
    Inv d₀ tr s :=
  h.invariant (Inv d₀) (inv_init n d₀) fun _ _ _ _ _ I hs => inv_step I hs

/-! ### Nobody sleeps whose predicate holds -/

/-- Without repeated waits. -/
def Fresh (tr : List (Ev D)) (s : St D) : PC D → Prop
  | .block k (some p) => k ≠ .clocked → p s.data = false
  | .asleep k (some p) => k ≠ .clocked → p s.data = false ∨ owed tr = true
  | .wake _ _ .interrupted => False
  | _ => True

theorem fresh_mono {tr tr' : List (Ev D)} {s s' : St D} {pc : PC D} (h : Fresh tr s pc)
    (h1 : s'.data = s.data) (h2 : owed tr = true → owed tr' = true) : Fresh tr' s' pc := by
  unfold Fresh at h ⊢
  split
  · rw [h1]; exact h
  · intro hk
    rw [h1]
    exact (h hk).imp_right h2
  · exact h
  · trivial

theorem fresh_set {tr es : List (Ev D)} {s : St D} {t : Nat} {pc' : PC D} {o' : Option Nat}
    (F : ∀ (u : Nat) x, s.ths[u]? = some x → Fresh tr s x)
    (h1 : owed tr = true → owed (tr ++ es) = true)
    (h2 : Fresh (tr ++ es) ⟨o', s.data, s.ths.set t pc'⟩ pc') :
    ∀ (u : Nat) x, (s.ths.set t pc')[u]? = some x → Fresh (tr ++ es) ⟨o', s.data, s.ths.set t pc'⟩ x := by
  intro u x hx
  rcases get_set_cases hx with ⟨_, rfl⟩ | ⟨_, hx⟩
  · exact h2
  · exact fresh_mono (F u x hx) rfl h1

theorem fresh_step {d₀ : D} {tr es : List (Ev D)} {s s' : St D} {l : Nat × Act D} (I : Inv d₀ tr s)
    (F : ∀ (u : Nat) x, s.ths[u]? = some x → Fresh tr s x)
    (hs : step false s l = some (s', es)) : ∀ (u : Nat) x, s'.ths[u]? = some x → Fresh (tr ++ es) s' x := by
  obtain ⟨t, a⟩ := l
  unfold step at hs
  simp only at hs
  split at hs
  · cases hs
  next pc ht =>
  have f := F t pc ht
  have o := owed_append tr
  split at hs
  -- lock, unlock
  · split at hs
    · cases hs
      intro u x hx
      exact fresh_mono (F u x hx) rfl (by rw [o]; exact id)
    · cases hs
  · split at hs
    · cases hs
      intro u x hx
      exact fresh_mono (F u x hx) rfl (by rw [o]; exact id)
    · cases hs
  -- update
  · split at hs
    · next d ho =>
      cases hs
      intro u x hx
      have := F u x hx
      have g := I.good u x hx
      unfold Fresh at this ⊢
      split
      · have := g.holds rfl
        rw [ho] at this
        cases this
        rw [ht] at hx
        cases hx
      · intro _
        right
        rw [o]
        rfl
      · exact this
      · trivial
    · cases hs
  · split at hs
    · cases hs
      refine fresh_set F (by rw [o]; exact id) ?_
      unfold begin
      split <;> trivial
    · cases hs
  · split at hs
    · cases hs
      exact fresh_set F (by rw [o]; exact id) trivial
    · cases hs
  -- notify
  · split at hs
    · cases hs
      exact fresh_set F (by rw [o]; exact id) trivial
    · cases hs
  · split at hs
    · cases hs
    · cases hs
      intro u x hx
      exact fresh_mono (F u x hx) rfl (by rw [o]; exact id)
  · cases hs
    intro v x hx
    simp only [List.getElem?_map] at hx
    cases hv : s.ths[v]? with
    | none => rw [hv] at hx; cases hx
    | some y =>
      rw [hv] at hx
      simp only [Option.map_some, Option.some.injEq] at hx
      subst hx
      have fv := F v y hv
      cases y with
      | asleep k p => trivial
      | block k p => cases p <;> exact fv
      | wake k p r => cases r <;> exact fv
      | _ => trivial
  -- test
  · next k p =>
    split at hs
    · cases hs
      exact fresh_set F (by rw [o]; exact id) trivial
    · next hp =>
      cases hs
      refine fresh_set F (by rw [o]; exact id) ?_
      unfold begin
      split
      · trivial
      · intro _; simpa using hp
  · cases hs
    exact fresh_set F (by rw [o]; exact id) trivial
  -- clock
  · next p =>
    cases hs
    refine fresh_set F (by rw [o]; exact id) ?_
    cases p
    · trivial
    · intro h; exact absurd rfl h
  · cases hs
    exact fresh_set F (by rw [o]; exact id) trivial
  · cases hs
    exact fresh_set F (by rw [o]; exact id) trivial
  -- block
  · next k p =>
    cases hs
    refine fresh_set F (by rw [o]; exact id) ?_
    cases p
    · trivial
    · intro h; exact Or.inl (f h)
  · cases hs
    exact fresh_set F (by rw [o]; exact id) trivial
  -- asleep
  · cases hs
    exact fresh_set F (by rw [o]; exact id) trivial
  · split at hs
    · cases hs
    · cases hs
      exact fresh_set F (by rw [o]; exact id) trivial
  · cases hs
  -- wake
  · next k p r =>
    split at hs
    · split at hs
      · cases hs; exact fresh_set F (by rw [o]; exact id) trivial
      · cases hs; exact fresh_set F (by rw [o]; exact id) trivial
      · cases hs; exact fresh_set F (by rw [o]; exact id) trivial
      · cases hs; exact fresh_set F (by rw [o]; exact id) trivial
      · cases hs; exact fresh_set F (by rw [o]; exact id) trivial
      · exact absurd f id
    · cases hs
  · cases hs; exact fresh_set F (by rw [o]; exact id) trivial
  · cases hs; exact fresh_set F (by rw [o]; exact id) trivial
  · cases hs

theorem fresh_exec {n : Nat} {d₀ : D} {tr : List (Ev D)} {s : St D} (h : Exec (step false) (init n d₀) tr s) :
    ∀ (u : Nat) x, s.ths[u]? = some x → Fresh tr s x := by
  induction h with
  | init => intro u x hx; rw [get_replicate hx]; trivial
  | snoc h hs F => exact fresh_step (inv_exec h) F hs

end Verif.CondVarPosix
