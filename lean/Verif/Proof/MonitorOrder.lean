import Verif.Spec.MonitorOrder
import Verif.Proof.Monitor

/-! What threads know in the emulations. -/

namespace Verif.MonitorOrder

open Verif.Atomic (Op)
open Verif.Monitor (Mon PC)

variable {D S : Type}

/-- What steps do to the mutex: only the mover locks or unlocks. -/
theorem owner_step {M : Mon D S} {s s' : Monitor.St D S} {t : Nat} {a : Monitor.Act S} {es : List (Atomic.Ev S)} (h : Monitor.step M s (t, a) = some (s', es)) :
    (s'.owner = s.owner ∨ (s.owner = none ∧ s'.owner = some t) ∨ s'.owner = none) := by
  unfold Monitor.step at h
  simp only at h
  repeat' split at h
  all_goals first
    | (cases h; done)
    | (cases h; exact .inl rfl)
    | (cases h; exact .inr (.inr rfl))
    | (cases h; exact .inr (.inl ⟨‹_›, rfl⟩))

/-- Who unlocks has owned the mutex. -/
theorem owner_exit {M : Mon D S} {s s' : Monitor.St D S} {t : Nat} {a : Monitor.Act S} {es : List (Atomic.Ev S)} (I : Monitor.Inv M s)
    (h : Monitor.step M s (t, a) = some (s', es)) (h1 : s'.owner = none) : s.owner = none ∨ s.owner = some t := by
  unfold Monitor.step at h
  simp only at h
  split at h
  · cases h
  next pc ht =>
  have own := I.own t pc ht
  repeat' split at h
  all_goals first
    | (cases h; done)
    | (cases h; exact .inl h1)
    | (cases h; cases h1; done)
    | (cases h; exact .inr (own.mp rfl))

/-- Operations return while they own the mutex. -/
theorem owner_ret {M : Mon D S} {s s' : Monitor.St D S} {t : Nat} {a : Monitor.Act S} {es : List (Atomic.Ev S)} (I : Monitor.Inv M s)
    (h : Monitor.step M s (t, a) = some (s', es)) {u : Nat} {op : Op S} {r : Bool} (he : .ret u op r ∈ es) : u = t ∧ s.owner = some t := by
  unfold Monitor.step at h
  simp only at h
  split at h
  · cases h
  next pc ht =>
  have own := I.own t pc ht
  repeat' split at h
  all_goals first
    | (cases h; done)
    | (cases h; simp at he; done)
    | (cases h; simp only [List.mem_singleton] at he; cases he; exact ⟨rfl, own.mp rfl⟩)

structure Inv (M : Mon D S) (tr : List (Ev S)) (s : St D S) : Prop where
  base : Monitor.Inv M s.base
  owner : ∀ t, s.base.owner = some t → ∃ v, s.views[t]? = some v ∧ s.msg ⊆ v ∧ ∀ id, Published relOf workOf tr id → id ∈ v
  free : s.base.owner = none → ∀ id, Published relOf workOf tr id → id ∈ s.msg
  works : ∀ j id, Ev.work j id ∈ tr → ∃ v, s.views[j]? = some v ∧ id ∈ v

theorem inv_init (M : Mon D S) (n : Nat) : Inv M [] (init M n) where
  base := Monitor.inv_init M n
  owner t h := by cases h
  free _ id h := absurd h not_published_nil
  works j id h := by cases h

theorem published_rel {tr es : List (Ev S)} (hr : ∀ e ∈ es, relOf e = none) {id : Nat} (h : Published relOf workOf (tr ++ es) id) : Published relOf workOf tr id := by
  rcases published_append h with h | ⟨e, he, j, w, h1, _⟩
  · exact h
  · rw [hr e he] at h1; cases h1

theorem grow {l : List View} {t : Nat} {v w : View} (ht : l[t]? = some v) (hs : v ⊆ w) {j : Nat} {x : View} (hj : l[j]? = some x) :
    ∃ y, (l.set t w)[j]? = some y ∧ x ⊆ y := by
  by_cases h : t = j
  · subst h
    rw [ht] at hj; cases hj
    exact ⟨w, get_set_self ht, hs⟩
  · exact ⟨x, by rw [get_set_ne h]; exact hj, List.Subset.refl _⟩

theorem works_of {t : Nat} {pc : PC S} {es : List (Atomic.Ev S)} {j id : Nat} (h : Ev.work j id ∈ puts t pc ++ es.map .ev) : False := by
  rcases List.mem_append.mp h with h | h
  · cases pc <;> simp [puts] at h
  · obtain ⟨_, _, h⟩ := List.mem_map.mp h
    cases h

theorem inv_step {M : Mon D S} {tr es : List (Ev S)} {s s' : St D S} {l : Nat × Act S} (I : Inv M tr s) (h : step M s l = some (s', es)) : Inv M (tr ++ es) s' := by
  obtain ⟨t, a⟩ := l
  unfold step at h
  simp only at h
  split at h
  · next pc v ht hv =>
    -- the views of all threads may only grow, and the owner's with them
    have quiet : ∀ {s' : St D S} {es : List (Ev S)}, s'.base = s.base → s'.msg = s.msg → (∃ w, s'.views = s.views.set t w ∧ v ⊆ w ∧ ∀ j id, Ev.work j id ∈ es → j = t ∧ id ∈ w) →
        (∀ e ∈ es, relOf e = none) → Inv M (tr ++ es) s' := by
      rintro s' es hb hm ⟨w, hw, hsub, hwork⟩ hr
      refine ⟨hb ▸ I.base, ?_, ?_, ?_⟩
      · intro o ho
        rw [hb] at ho
        obtain ⟨x, h1, h2, h3⟩ := I.owner o ho
        obtain ⟨y, h4, h5⟩ := grow hv hsub h1
        refine ⟨y, by rw [hw]; exact h4, ?_, fun id hp => h5 (h3 id (published_rel hr hp))⟩
        rw [hm]; exact fun i hi => h5 (h2 hi)
      · intro ho id hp
        rw [hb] at ho
        rw [hm]
        exact I.free ho id (published_rel hr hp)
      · intro j id hj
        rw [hw]
        rcases List.mem_append.mp hj with hj | hj
        · obtain ⟨x, h1, h2⟩ := I.works j id hj
          obtain ⟨y, h4, h5⟩ := grow hv hsub h1
          exact ⟨y, h4, h5 h2⟩
        · obtain ⟨rfl, h1⟩ := hwork j id hj
          exact ⟨w, get_set_self hv, h1⟩
    split at h
    · next a =>
      split at h
      · cases h
      · next b es' hb =>
        have B := Monitor.inv_step I.base hb
        have hp : ∀ id, Published relOf workOf (tr ++ (puts t pc ++ es'.map .ev)) id → Published relOf workOf tr id ∨ ((∃ x, pc = .sig x) ∧ id ∈ v) := by
          intro id hp
          rcases published_append hp with hp | ⟨e, he, j, w, h1, h2, h3⟩
          · exact .inl hp
          · right
            rcases List.mem_append.mp he with he | he
            · cases pc with
              | sig x =>
                cases List.mem_singleton.mp he
                cases h1
                refine ⟨⟨x, rfl⟩, ?_⟩
                cases w with
                | work j' id' =>
                  cases h3
                  rcases List.mem_append.mp h2 with h2 | h2
                  · obtain ⟨y, h4, h5⟩ := I.works _ _ h2
                    rw [hv] at h4; cases h4
                    exact h5
                  · exact (works_of h2).elim
                | ev e => cases h3
                | put j x => cases h3
              | _ => cases he
            · obtain ⟨_, _, rfl⟩ := List.mem_map.mp he
              cases h1
        have hsig : (∃ x, pc = .sig x) → s.base.owner = some t := by
          rintro ⟨x, rfl⟩
          exact (I.base.own t _ ht).mp rfl
        have works : ∀ {vs : List View}, (∀ (j : Nat) x, s.views[j]? = some x → ∃ y, vs[j]? = some y ∧ x ⊆ y) →
            ∀ j id, Ev.work j id ∈ tr ++ (puts t pc ++ es'.map .ev) → ∃ v, vs[j]? = some v ∧ id ∈ v := by
          intro vs hg j id hj
          rcases List.mem_append.mp hj with hj | hj
          · obtain ⟨x, h1, h2⟩ := I.works j id hj
            obtain ⟨y, h4, h5⟩ := hg j x h1
            exact ⟨y, h4, h5 h2⟩
          · exact (works_of hj).elim
        split at h
        · next o h0 h1 =>
          cases h
          have ho : o = t := by
            rcases owner_step hb with h2 | ⟨_, h2⟩ | h2
            · rw [h0, h1] at h2; cases h2
            · rw [h1] at h2; exact Option.some.inj h2
            · rw [h1] at h2; cases h2
          subst ho
          refine ⟨B, ?_, ?_, works fun j x hj => grow hv (List.subset_append_left _ _) hj⟩
          · intro o' ho'
            have ho' : b.owner = some o' := ho'
            rw [h1] at ho'; cases ho'
            refine ⟨_, get_set_self hv, List.subset_append_right _ _, fun id hpub => ?_⟩
            rcases hp id hpub with h | ⟨hx, _⟩
            · exact List.mem_append_right _ (I.free h0 id h)
            · rw [hsig hx] at h0; cases h0
          · intro hn
            have hn : b.owner = none := hn
            rw [h1] at hn; cases hn
        · next o h0 h1 =>
          cases h
          have ho : o = t := by
            rcases owner_exit I.base hb h1 with h2 | h2
            · rw [h0] at h2; cases h2
            · rw [h0] at h2; exact Option.some.inj h2
          subst ho
          refine ⟨B, ?_, ?_, works fun j x hj => ⟨x, hj, List.Subset.refl _⟩⟩
          · intro o' ho'
            have ho' : b.owner = some o' := ho'
            rw [h1] at ho'; cases ho'
          · intro _ id hpub
            rcases hp id hpub with h | ⟨_, h⟩
            · obtain ⟨x, h2, _, h3⟩ := I.owner _ h0
              rw [hv] at h2; cases h2
              exact h3 id h
            · exact h
        · next h0 h0' =>
          cases h
          have he : b.owner = s.base.owner := by
            rcases owner_step hb with h2 | ⟨h2, h3⟩ | h2
            · exact h2
            · exact (h0 t h2 h3).elim
            · cases ho : s.base.owner with
              | none => exact h2
              | some o => exact (h0' o ho h2).elim
          refine ⟨B, ?_, ?_, works fun j x hj => ⟨x, hj, List.Subset.refl _⟩⟩
          · intro o ho
            have ho : b.owner = some o := ho
            rw [he] at ho
            obtain ⟨x, h1, h2, h3⟩ := I.owner o ho
            refine ⟨x, h1, h2, fun id hpub => ?_⟩
            rcases hp id hpub with h | ⟨hx, h⟩
            · exact h3 id h
            · rw [hsig hx] at ho
              cases ho
              rw [hv] at h1; cases h1
              exact h
          · intro hn id hpub
            have hn : b.owner = none := hn
            rw [he] at hn
            rcases hp id hpub with h | ⟨hx, h⟩
            · exact I.free hn id h
            · rw [hsig hx] at hn; cases hn
    · split at h
      · cases h
        refine quiet rfl rfl ⟨_, rfl, List.subset_cons_self _ _, fun j id hj => ?_⟩ (fun e he => by rw [List.mem_singleton.mp he]; rfl)
        cases List.mem_singleton.mp hj
        exact ⟨rfl, List.mem_cons_self ..⟩
      · cases h
    · split at h
      · cases h
        exact quiet rfl rfl ⟨_, rfl, List.subset_append_left _ _, fun j id hj => by cases hj⟩ (fun e he => by cases he)
      · cases h
  · cases h

theorem inv_exec {M : Mon D S} {n : Nat} {tr : List (Ev S)} {s : St D S} (h : Exec (step M) (init M n) tr s) : Inv M tr s :=
  h.invariant (Inv M) (inv_init M n) (fun _ _ _ _ _ I hs => inv_step I hs)

end Verif.MonitorOrder
