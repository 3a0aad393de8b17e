import Verif.Spec.Lifecycle

/-! # What constructors create and destructors destroy -/

namespace Verif.Lifecycle

/-- `objs` have been added to what existed. -/
structure Added (os : OS) (objs : List Obj) (os' : OS) : Prop where
  ok : Ok os'
  live : os'.live.Perm (objs ++ os.live)

theorem destroy_added {os os' : OS} {o : Obj} {objs : List Obj} (h : Added os (o :: objs) os') : Added os objs (os'.destroy o) := by
  have hm : o ∈ os'.live := h.live.mem_iff.mpr (by simp)
  have he : os'.destroy o = { os' with live := os'.live.erase o } := by unfold OS.destroy; rw [if_pos hm]
  rw [he]
  refine ⟨⟨fun x hx => h.ok.lt x (List.mem_of_mem_erase hx), h.ok.nodup.erase _, h.ok.good⟩, ?_⟩
  have := h.live.erase o
  simpa using this

theorem unbody_added {os : OS} {objs rest : List Obj} : ∀ {os' : OS}, Added os (objs ++ rest) os' → Added os rest (unbody objs os') := by
  induction objs with
  | nil => intro os' h; exact h
  | cons o objs ih => intro os' h; exact ih (destroy_added h)

theorem unmembers_added {os : OS} {ms : List (List Obj)} : ∀ {os' : OS}, Added os ms.flatten os' →
    Added os [] (ms.foldl (fun os m => unbody m os) os') := by
  induction ms with
  | nil => intro os' h; exact h
  | cons m ms ih => intro os' h; exact ih (unbody_added (by simpa using h))

theorem create_added {os os₀ : OS} {acc : List Obj} {k : Kind} (h : Added os₀ acc os) :
    (∀ o, (os.create k).2 = some o → o.kind = k ∧ Added os₀ (o :: acc) (os.create k).1) ∧
    ((os.create k).2 = none → Added os₀ acc (os.create k).1) := by
  unfold OS.create
  split
  · exact ⟨nofun, fun _ => ⟨⟨h.ok.lt, h.ok.nodup, h.ok.good⟩, h.live⟩⟩
  · refine ⟨fun o ho => ?_, nofun⟩
    cases ho
    refine ⟨rfl, ⟨?_, ?_, h.ok.good⟩, ?_⟩
    · intro x hx
      rcases List.mem_cons.mp hx with rfl | hx
      · exact Nat.lt_succ_self _
      · exact Nat.lt_succ_of_lt (h.ok.lt x hx)
    · exact List.nodup_cons.mpr ⟨fun hm => Nat.lt_irrefl _ (h.ok.lt _ hm), h.ok.nodup⟩
    · exact h.live.cons _

/-- Permuted lists of objects are as good. -/
theorem Added.perm {os os' : OS} {l l' : List Obj} (h : Added os l os') (hp : l.Perm l') : Added os l' os' :=
  ⟨h.ok, h.live.trans (hp.append_right _)⟩

theorem body_some {os₀ : OS} (ks : List Kind) : ∀ {os : OS} {acc : List Obj}, Added os₀ acc os → ∀ {objs}, (body ks os).2 = some objs →
    objs.map (·.kind) = ks ∧ Added os₀ (objs ++ acc) (body ks os).1 := by
  induction ks with
  | nil => intro os acc h objs ho; cases ho; exact ⟨rfl, h⟩
  | cons k ks ih =>
    intro os acc h objs ho
    simp only [body] at ho ⊢
    have hc := create_added (k := k) h
    generalize os.create k = c at *
    obtain ⟨os1, o⟩ := c
    cases o with
    | none => cases ho
    | some o =>
      obtain ⟨hk, h1⟩ := hc.1 o rfl
      have hb := fun {o'} => ih (os := os1) h1 (objs := o')
      simp only at ho ⊢
      generalize body ks os1 = b at *
      obtain ⟨os2, l⟩ := b
      cases l with
      | none => cases ho
      | some l =>
        cases ho
        obtain ⟨h2, h3⟩ := hb rfl
        refine ⟨by simp [hk, h2], h3.perm ?_⟩
        simp only [List.cons_append]
        exact List.perm_middle

/-- A body that creates at most one object leaves nothing behind when it throws. -/
theorem body_none {os₀ : OS} {ks : List Kind} (hk : ks.length ≤ 1) {os : OS} {acc : List Obj} (h : Added os₀ acc os)
    (hn : (body ks os).2 = none) : Added os₀ acc (body ks os).1 := by
  match ks with
  | [] => cases hn
  | [k] =>
    simp only [body] at hn ⊢
    have hc := create_added (k := k) h
    generalize os.create k = c at *
    obtain ⟨os1, o⟩ := c
    cases o with
    | none => exact hc.2 rfl
    | some o => cases hn
  | _ :: _ :: _ => simp at hk

theorem members_some {os₀ : OS} (ms : List (List Kind)) : ∀ {os : OS} {dn : List (List Obj)}, Added os₀ dn.flatten os →
    ∀ {objs}, (members ms dn os).2 = some objs →
      objs.reverse.map (fun l => l.map (·.kind)) = dn.reverse.map (fun l => l.map (·.kind)) ++ ms ∧
      Added os₀ objs.flatten (members ms dn os).1 := by
  induction ms with
  | nil => intro os dn h objs ho; cases ho; exact ⟨by simp, h⟩
  | cons m ms ih =>
    intro os dn h objs ho
    simp only [members] at ho ⊢
    have hb := fun {o} => body_some m h (objs := o)
    generalize body m os = b at *
    obtain ⟨os1, o⟩ := b
    cases o with
    | none => cases ho
    | some o =>
      obtain ⟨hk, h1⟩ := hb rfl
      simp only at ho ⊢
      obtain ⟨h2, h3⟩ := ih (dn := o :: dn) (by simpa using h1) ho
      exact ⟨by rw [h2]; simp [hk], h3⟩

theorem members_none {os₀ : OS} (ms : List (List Kind)) (hk : ∀ m ∈ ms, m.length ≤ 1) : ∀ {os : OS} {dn : List (List Obj)},
    Added os₀ dn.flatten os → (members ms dn os).2 = none → Added os₀ [] (members ms dn os).1 := by
  induction ms with
  | nil => intro os dn h ho; cases ho
  | cons m ms ih =>
    intro os dn h ho
    simp only [members] at ho ⊢
    have hb := fun {o} => body_some m h (objs := o)
    have hb' := body_none (hk m (by simp)) h
    generalize body m os = b at *
    obtain ⟨os1, o⟩ := b
    cases o with
    | none => exact unmembers_added (hb' rfl)
    | some o =>
      obtain ⟨_, h1⟩ := hb rfl
      exact ih (fun x hx => hk x (List.mem_cons_of_mem _ hx)) (by simpa using h1) ho

theorem construct_some {c : Cls} {os : OS} (h : Ok os) {x : List Obj × List (List Obj)} (hx : (construct c os).2 = some x) :
    x.1.map (·.kind) = c.own ∧ x.2.reverse.map (fun l => l.map (·.kind)) = c.members ∧
    Added os (x.1 ++ x.2.flatten) (construct c os).1 := by
  unfold construct at hx ⊢
  have h0 : Added os ([] : List (List Obj)).flatten os := ⟨h, List.Perm.refl _⟩
  have hm := fun {o} => members_some c.members h0 (objs := o)
  generalize members c.members [] os = m at *
  obtain ⟨os1, o⟩ := m
  cases o with
  | none => cases hx
  | some ms =>
    obtain ⟨h1, h2⟩ := hm rfl
    simp only at hx ⊢
    have hb := fun {o} => body_some c.own h2 (objs := o)
    generalize body c.own os1 = b at *
    obtain ⟨os2, o⟩ := b
    cases o with
    | none => cases hx
    | some own =>
      cases hx
      obtain ⟨h3, h4⟩ := hb rfl
      exact ⟨h3, by simpa using h1, h4⟩

theorem construct_none {c : Cls} (hm : ∀ m ∈ c.members, m.length ≤ 1) (ho : c.own.length ≤ 1) {os : OS} (h : Ok os)
    (hx : (construct c os).2 = none) : Added os [] (construct c os).1 := by
  unfold construct at hx ⊢
  have h0 : Added os ([] : List (List Obj)).flatten os := ⟨h, List.Perm.refl _⟩
  have h1 := fun {o} => members_some c.members h0 (objs := o)
  have h1' := members_none c.members hm h0
  generalize members c.members [] os = m at *
  obtain ⟨os1, o⟩ := m
  cases o with
  | none => exact h1' rfl
  | some ms =>
    obtain ⟨_, h2⟩ := h1 rfl
    simp only at hx ⊢
    have hb' := body_none ho h2
    generalize body c.own os1 = b at *
    obtain ⟨os2, o⟩ := b
    cases o with
    | none => exact unmembers_added (hb' rfl)
    | some own => cases hx

end Verif.Lifecycle
