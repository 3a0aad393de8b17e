import Verif.Proof.Lifecycle

/-! C85: constructors and destructors release what they obtain. -/

namespace Verif.Lifecycle

/-- **C85.**  For every class of this form: when the constructor has succeeded, the object has the OS objects it needs, each of its own; the destructor destroys
exactly these, each once. -/
theorem C85_destroyed {c : Cls} {os : OS} (h : Ok os) {x : List Obj × List (List Obj)}
    (hx : (construct c os).2 = some x) :
    (x.1 ++ x.2.flatten).Nodup ∧ (∀ o ∈ x.1 ++ x.2.flatten, o ∉ os.live ∧ o ∈ (construct c os).1.live) ∧
    x.1.map (·.kind) = c.own ∧ x.2.reverse.map (fun l => l.map (·.kind)) = c.members ∧
    (destruct x (construct c os).1).bad = false ∧ (destruct x (construct c os).1).live.Perm os.live := by
  obtain ⟨h1, h2, h3⟩ := construct_some h hx
  have h4 := h3.live.nodup_iff.mp h3.ok.nodup
  have h5 : Added os [] (destruct x (construct c os).1) := unmembers_added (unbody_added h3)
  obtain ⟨h6, _, h7⟩ := List.nodup_append.mp h4
  refine ⟨h6, fun o ho => ⟨fun hl => h7 o ho o hl rfl, h3.live.mem_iff.mpr (List.mem_append_left _ ho)⟩, h1, h2, h5.ok.good, ?_⟩
  simpa using h5.live

/-- A constructor that succeeds has created exactly the OS objects that an object of the class needs; everything else is as it was. -/
theorem C85_objects {c : Name} {os : OS} (h : Ok os) {x : List Obj × List (List Obj)} (hx : (construct c.cls os).2 = some x) :
    ∃ new, (construct c.cls os).1.live.Perm (new ++ os.live) ∧ (new.map (·.kind)).Perm (needs c) ∧ (construct c.cls os).1.bad = false := by
  obtain ⟨h1, h2, h3⟩ := construct_some h hx
  refine ⟨_, h3.live, ?_, h3.ok.good⟩
  have h4 : (x.2.flatten.map (·.kind)).Perm c.cls.members.flatten := by
    rw [← h2, List.map_flatten, List.map_reverse]
    exact (List.Perm.flatten (List.reverse_perm _)).symm
  rw [List.map_append, h1]
  refine (List.Perm.append_left _ h4).trans ?_
  cases c <;> decide

/-- The constructor succeeds if the OS can create all of them. -/
theorem C85_succeeds {c : Name} {os : OS} (ha : ∀ b ∈ os.answers, b = true) : ∃ x, (construct c.cls os).2 = some x := by
  obtain ⟨live, next, answers, bad⟩ := os
  have hc : ∀ (o : OS) (k : Kind), (∀ b ∈ o.answers, b = true) → ∃ y, (o.create k).2 = some y ∧ ∀ b ∈ (o.create k).1.answers, b = true := by
    intro o k h
    unfold OS.create
    split
    · next r hr => exact absurd (h false (by rw [hr]; simp)) (by simp)
    · exact ⟨_, rfl, fun b hb => h b (List.mem_of_mem_tail hb)⟩
  have hb : ∀ (ks : List Kind) (o : OS), (∀ b ∈ o.answers, b = true) → ∃ y, (body ks o).2 = some y ∧ ∀ b ∈ (body ks o).1.answers, b = true := by
    intro ks
    induction ks with
    | nil => intro o h; exact ⟨_, rfl, h⟩
    | cons k ks ih =>
      intro o h
      obtain ⟨y, h1, h2⟩ := hc o k h
      obtain ⟨z, h3, h4⟩ := ih _ h2
      simp only [body]
      generalize o.create k = r at *
      obtain ⟨r1, r2⟩ := r
      cases h1
      simp only at h3 h4 ⊢
      generalize body ks r1 = q at *
      obtain ⟨q1, q2⟩ := q
      cases h3
      exact ⟨_, rfl, h4⟩
  have hm : ∀ (ms : List (List Kind)) (dn : List (List Obj)) (o : OS), (∀ b ∈ o.answers, b = true) →
      ∃ y, (members ms dn o).2 = some y ∧ ∀ b ∈ (members ms dn o).1.answers, b = true := by
    intro ms
    induction ms with
    | nil => intro dn o h; exact ⟨_, rfl, h⟩
    | cons m ms ih =>
      intro dn o h
      obtain ⟨y, h1, h2⟩ := hb m o h
      simp only [members]
      generalize body m o = r at *
      obtain ⟨r1, r2⟩ := r
      cases h1
      exact ih _ _ h2
  obtain ⟨y, h1, h2⟩ := hm c.cls.members [] _ ha
  obtain ⟨z, h3, _⟩ := hb c.cls.own _ h2
  unfold construct
  generalize members c.cls.members [] _ = r at *
  obtain ⟨r1, r2⟩ := r
  cases h1
  simp only at h3 ⊢
  generalize body c.cls.own r1 = q at *
  obtain ⟨q1, q2⟩ := q
  cases h3
  exact ⟨_, rfl⟩

/-- Whoever destroys an object of the OS a second time, or one that does not exist, is found out. -/
theorem C85_twice {os : OS} {o : Obj} (h : os.live.Nodup) : ((os.destroy o).destroy o).bad = true := by
  have hb : ∀ s : OS, o ∉ s.live → (s.destroy o).bad = true := by
    intro s hs; unfold OS.destroy; rw [if_neg hs]
  apply hb
  unfold OS.destroy
  split
  · exact h.not_mem_erase
  · next hn => exact hn

/-- **C85**, refuted: the constructor of the emulated `timed_mutex` throws when the condition variable cannot be created, and leaves the mutex. -/
theorem C85_refuted : ∃ os, Ok os ∧ os.live = [] ∧ (construct Name.timedMutexEmulation.cls os).2 = none ∧
    (construct Name.timedMutexEmulation.cls os).1.live = [⟨.mutex, 0⟩] :=
  ⟨⟨[], 0, [true, false], false⟩, ⟨by simp, List.nodup_nil, rfl⟩, rfl, rfl, rfl⟩

/-- **C85**, what holds: for all the other classes a constructor that throws leaves everything as it was and has destroyed nothing else.  Missing:
the emulated `timed_mutex`. -/
theorem C85_partial {c : Name} (hne : c ≠ .timedMutexEmulation) {os : OS} (h : Ok os)
    (hx : (construct c.cls os).2 = none) :
    (construct c.cls os).1.bad = false ∧ (construct c.cls os).1.live.Perm os.live := by
  have hk : (∀ m ∈ c.cls.members, m.length ≤ 1) ∧ c.cls.own.length ≤ 1 := by
    cases c <;> first | exact absurd rfl hne | decide
  have := construct_none hk.1 hk.2 h hx
  exact ⟨this.ok.good, by simpa using this.live⟩

/-- The second member cannot be created. -/
example : ∃ os, Ok os ∧ (construct Name.condVarAny.cls os).2 = none ∧ os.answers = [true, false] :=
  ⟨⟨[⟨.sem, 3⟩], 4, [true, false], false⟩, ⟨by decide, by decide, rfl⟩, rfl, rfl⟩

/-- A semaphore exists and is destroyed twice. -/
example : (⟨[⟨.sem, 3⟩, ⟨.sem, 4⟩], 5, [], false⟩ : OS).live.Nodup ∧ ((⟨[⟨.sem, 3⟩, ⟨.sem, 4⟩], 5, [], false⟩ : OS).destroy ⟨.sem, 3⟩).bad = false := by decide

/-- All creations succeed. -/
example : ∃ os x, Ok os ∧ (construct Name.timedMutexEmulation.cls os).2 = some x ∧ x.1.length = 2 :=
  ⟨⟨[⟨.sem, 3⟩], 4, [true, true], false⟩, _, ⟨by decide, by decide, rfl⟩, rfl, rfl⟩

end Verif.Lifecycle
