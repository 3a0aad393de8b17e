import Verif.Proof.AutoEventSem
import Verif.Spec.AutoSemOrder

/-! What threads observe, in the semaphore based auto_reset_event. -/

namespace Verif.AutoSemOrder

open Verif.Atomic (One)
open AutoSem (PC seen)

/-! ## The members -/

theorem plain_append (a b : List Ev) : plain (a ++ b) = plain a ++ plain b := List.filterMap_append

theorem plain_ev (es : List (Atomic.Ev One)) : plain (es.map .ev) = es := by
  unfold plain
  rw [List.filterMap_map]
  exact List.filterMap_some

theorem observe_plain (s : St) (t : Nat) (v : V) (pc : PC) (b : AutoSem.St) : plain (observe s t v pc b).2 = [] := by
  unfold observe
  split <;> try rfl
  split <;> rfl

/-- The counting invariant does not depend on which value is loaded. -/
theorem base_step {s₀ : AutoSem.St} {tr es : List Ev} {s s' : St} {l : Nat × Act} (I : AutoSem.Inv s₀ (plain tr) s.base) (h : step s l = some (s', es)) :
    AutoSem.Inv s₀ (plain (tr ++ es)) s'.base ∧ (AutoSem.Low (plain tr) s.base → AutoSem.Low (plain (tr ++ es)) s'.base) := by
  obtain ⟨t, a⟩ := l
  unfold step at h
  simp only at h
  split at h
  · next pc v ht hv =>
    split at h
    · split at h
      · cases h
        have e : plain (tr ++ [Ev.work t s.fresh]) = plain tr := by rw [plain_append]; simp [plain]
        rw [e]
        exact ⟨I, id⟩
      · cases h
    · split at h
      · split at h
        · cases h
          rw [List.append_nil]
          exact ⟨I, id⟩
        · cases h
      · cases h
    · next i =>
      split at h
      · cases h
      · next x hx =>
        split at h
        · next hc =>
          have hr := hc.2
          cases h
          have e : plain (tr ++ (if x < 0 then [Ev.dropped t] else [])) = plain tr ++ [] := by
            rw [plain_append]; split <;> rfl
          obtain ⟨g1, g2, g3, g4, g5⟩ := AutoSem.seen_counts x
          have e1 : pc.registered = false := by cases pc <;> first | rfl | cases hr
          have e2 : pc.posting = false := by cases pc <;> first | rfl | cases hr
          have e3 : pc.posts = true := by cases pc <;> first | rfl | cases hr
          have e4 : pc.lost = false := by cases pc <;> first | rfl | cases hr
          have e5 : (seen x).lost = false := by unfold seen; split <;> rfl
          refine ⟨?_, ?_⟩
          · rw [e]
            refine AutoSem.inv_move I ht ?_ ?_ g5
            · rw [g1, g2, e1, e2]
              simp only [b2n_false]; omega
            · rw [g3, e3]
              have : Atomic.successes ([] : List (Atomic.Ev One)) = 0 := rfl
              rw [this]
              simp only [b2n_false, b2n_true]
              omega
          · rw [e]
            intro L
            refine AutoSem.low_move L ht ?_
            rw [e4, e5]
            change _ → -1 + 0 ≤ _ + _ + 0 + _ + 0
            omega
        · cases h
    · next a =>
      split at h
      · split at h
        · cases h
        · next b es' hb =>
          cases h
          have e : plain (tr ++ (es'.map .ev ++ (observe s t v pc b).2)) = plain tr ++ es' := by
            rw [plain_append, plain_append, plain_ev, observe_plain, List.append_nil]
          rw [e]
          exact ⟨AutoSem.inv_step I hb, fun L => AutoSem.low_step I L hb⟩
      · cases h
  · cases h

theorem base_exec {n : Nat} {tr : List Ev} {s : St} (h : Exec step (init n) tr s) :
    AutoSem.Inv (AutoSem.init n) (plain tr) s.base ∧ AutoSem.Low (plain tr) s.base := by
  refine h.invariant (fun tr s => AutoSem.Inv (AutoSem.init n) (plain tr) s.base ∧ AutoSem.Low (plain tr) s.base) ?_ ?_
  · exact ⟨AutoSem.inv_init n, AutoSem.low_exec (n := n) .init⟩
  intro tr s l s' es ⟨I, L⟩ hs
  obtain ⟨h1, h2⟩ := base_step I hs
  exact ⟨h1, h2 L⟩

theorem base_from {s₀ s₁ : AutoSem.St} {tr₀ : List (Atomic.Ev One)} {s s' : St} {tr : List Ev} (I : AutoSem.Inv s₀ tr₀ s₁) (e : s.base = s₁) (h : Exec step s tr s') :
    AutoSem.Inv s₁ (plain tr) s'.base := by
  refine h.invariant (fun tr s => AutoSem.Inv s₁ (plain tr) s.base) ?_ (fun _ _ _ _ _ I hs => (base_step I hs).1)
  rw [e]
  exact AutoSem.inv_restart I

/-! ## What one action does to what is observed -/

/-- The actions, by what they do to the values of `m_state` and to what is observed, and the event. -/
inductive Delta (s : St) (t : Nat) (v : V) : St → List Ev → Prop
  | quiet (b : AutoSem.St) (es : List Ev) (he : ∀ e ∈ es, ∃ e', e = .ev e') : Delta s t v { s with base := b } es
  | work (hi : s.base.ths[t]? = some .idle) :
      Delta s t v { s with views := s.views.set t { v with ids := v.ids ++ [s.fresh] }, fresh := s.fresh + 1 } [.work t s.fresh]
  | sync (u : Nat) (w : V) (hw : s.views[u]? = some w) : Delta s t v { s with views := s.views.set t (v.join w) } []
  | load (b : AutoSem.St) (i : Nat) (x : Int) (hx : s.hist[i]? = some x) (hi : v.pos ≤ i) :
      Delta s t v { s with base := b, views := s.views.set t { v with pos := i } } (if x < 0 then [.dropped t] else [])
  | signalled (b : AutoSem.St) : Delta s t v { rmw casOrder s t v b.state with base := b } [.signalled t b.state]
  | joined (b : AutoSem.St) : Delta s t v { rmw addOrder s t v b.state with base := b } [.joined t b.state]
  | withdrew (b : AutoSem.St) : Delta s t v { rmw subOrder s t v b.state with base := b } [.withdrew t b.state]
  | posted (b : AutoSem.St) : Delta s t v { semRmw semPostOrder s t v with base := b } [.posted t]
  | took (b : AutoSem.St) : Delta s t v { semRmw semWaitOrder s t v with base := b } [.took t]

theorem delta_step {s s' : St} {t : Nat} {a : Act} {es : List Ev} (h : step s (t, a) = some (s', es)) :
    ∃ v, s.views[t]? = some v ∧ Delta s t v s' es := by
  unfold step at h
  simp only at h
  split at h
  · next pc v ht hv =>
    refine ⟨v, hv, ?_⟩
    split at h
    · split at h
      · next hi => cases h; exact .work (hi ▸ ht)
      · cases h
    · split at h
      · next w hu1 hu2 =>
        split at h
        · cases h; exact .sync _ w hu2
        · cases h
      · cases h
    · split at h
      · cases h
      · next x hx =>
        split at h
        · next hc => cases h; exact .load _ _ x hx hc.1
        · cases h
    · next a =>
      split at h
      · next hd =>
        split at h
        · cases h
        · next b es' hb =>
          cases h
          have hq : es' = [] → es'.map Ev.ev = [] := fun h => by rw [h]; rfl
          unfold AutoSem.step at hb
          simp only [ht] at hb
          cases pc with
          | pCas old =>
            have e : es' = [] := by
              cases a <;> first | (cases hb; done) | (cases hb; rfl) | skip
              simp only at hb
              split at hb <;> (cases hb; rfl)
            rw [hq e]
            exact .signalled b
          | pSem =>
            have e : es' = [] := by cases a <;> first | (cases hb; done) | (cases hb; rfl)
            rw [hq e]
            exact .posted b
          | wAdd k =>
            have e : es' = [] := by cases a <;> first | (cases hb; done) | (cases hb; rfl)
            rw [hq e]
            exact .joined b
          | wSub k =>
            have e : es' = [] := by cases a <;> first | (cases hb; done) | (cases hb; rfl)
            rw [hq e]
            exact .withdrew b
          | wSem k =>
            unfold observe
            simp only
            split
            · next hlt =>
              have e : es' = [] := by
                cases a with
                | go =>
                  simp only at hb
                  split at hb
                  · cases hb; rfl
                  · cases k <;> first | (cases hb; done) | (cases hb; rfl)
                | timeout =>
                  cases k <;> simp only at hb <;> try (cases hb; done)
                  split at hb
                  · cases hb; simp only at hlt; omega
                  · cases hb
                | fail => cases k <;> (cases hb; simp only at hlt; omega)
                | _ => cases hb
              rw [hq e]
              exact .took b
            · refine .quiet b _ ?_
              intro e he
              rw [List.append_nil] at he
              obtain ⟨e', _, rfl⟩ := List.mem_map.mp he
              exact ⟨e', rfl⟩
          | _ =>
            refine .quiet b _ ?_
            intro e he
            change e ∈ es'.map Ev.ev ++ [] at he
            rw [List.append_nil] at he
            obtain ⟨e', _, rfl⟩ := List.mem_map.mp he
            exact ⟨e', rfl⟩
      · cases h
  · cases h

/-! ## What has been observed -/

theorem split_append {a b tr es : List Ev} {e : Ev} (h : tr ++ es = a ++ e :: b) :
    (∃ b', tr = a ++ e :: b' ∧ b = b' ++ es) ∨ ∃ c, a = tr ++ c ∧ es = c ++ e :: b := by
  rcases List.append_eq_append_iff.mp h with ⟨c, h1, h2⟩ | ⟨c, h1, h2⟩
  · exact .inr ⟨c, h1, h2⟩
  · cases c with
    | nil =>
      simp only [List.nil_append] at h2
      exact .inr ⟨[], by simp [h1], h2.symm⟩
    | cons x c =>
      simp only [List.cons_append, List.cons.injEq] at h2
      obtain ⟨rfl, h2⟩ := h2
      exact .inl ⟨c, h1, h2⟩

theorem split_snoc {a b tr : List Ev} {e x : Ev} (h : tr ++ [x] = a ++ e :: b) : (∃ b', tr = a ++ e :: b' ∧ b = b' ++ [x]) ∨ a = tr ∧ e = x ∧ b = [] := by
  rcases split_append h with h | ⟨c, h1, h2⟩
  · exact .inl h
  · cases c with
    | nil => cases h2; exact .inr ⟨by rw [h1, List.append_nil], rfl, rfl⟩
    | cons y c => simp at h2

theorem values_append (tr es : List Ev) : values (tr ++ es) = values tr ++ es.filterMap fun e => (change e).map (·.2) := by
  unfold values
  rw [List.filterMap_append]
  rfl

theorem values_le (tr es : List Ev) : (values tr).length ≤ (values (tr ++ es)).length := by
  rw [values_append, List.length_append]; omega

/-- What holds of everything that is observed or published. -/
structure Ok (tr : List Ev) (f : Nat) (v : V) : Prop where
  pos : v.pos < (values tr).length
  ids : ∀ id ∈ v.ids, id < f
  old : ∀ a e b, tr = a ++ e :: b → ∀ u x id, change e = some (u, x) → Ev.work u id ∈ b → id ∈ v.ids → (values a).length ≤ v.pos

theorem Ok.append {tr es : List Ev} {f f' : Nat} {v : V} (h : Ok tr f v) (hf : f ≤ f') (hes : ∀ u id, Ev.work u id ∈ es → id ∉ v.ids) :
    Ok (tr ++ es) f' v where
  pos := Nat.lt_of_lt_of_le h.pos (values_le tr es)
  ids id hi := Nat.lt_of_lt_of_le (h.ids id hi) hf
  old a e b he u x id hc hw hi := by
    rcases split_append he with ⟨b', h1, rfl⟩ | ⟨c, h1, h2⟩
    · rcases List.mem_append.mp hw with hw | hw
      · exact h.old a e b' h1 u x id hc hw hi
      · exact absurd hi (hes u id hw)
    · exact absurd hi (hes u id (by rw [h2]; simp [hw]))

theorem Ok.join {tr : List Ev} {f : Nat} {v w : V} (h : Ok tr f v) (g : Ok tr f w) : Ok tr f (v.join w) where
  pos := by have := h.pos; have := g.pos; simp only [V.join]; omega
  ids id hi := by
    rcases List.mem_append.mp hi with hi | hi
    · exact h.ids id hi
    · exact g.ids id hi
  old a e b he u x id hc hw hi := by
    rcases List.mem_append.mp hi with hi | hi
    · have := h.old a e b he u x id hc hw hi
      simp only [V.join]; omega
    · have := g.old a e b he u x id hc hw hi
      simp only [V.join]; omega

theorem Ok.raise {tr : List Ev} {f : Nat} {v : V} {i : Nat} (h : Ok tr f v) (hi : v.pos ≤ i) (hl : i < (values tr).length) : Ok tr f { v with pos := i } where
  pos := hl
  ids := h.ids
  old a e b he u x id hc hw hm := Nat.le_trans (h.old a e b he u x id hc hw hm) hi

/-- What holds of what thread `t` has observed. -/
structure Own (tr : List Ev) (t : Nat) (v : V) : Prop where
  work : ∀ id, Ev.work t id ∈ tr → id ∈ v.ids
  mine : ∀ a e b x, tr = a ++ e :: b → change e = some (t, x) → (values a).length ≤ v.pos
  took : ∀ a b, tr = a ++ .took t :: b → ∀ id, Published relPost workOf a id → id ∈ v.ids
  joined : ∀ a b x, tr = a ++ .joined t x :: b → ∀ id, Published relSignal workOf a id → id ∈ v.ids

theorem Own.snoc {tr : List Ev} {t : Nat} {v v' : V} {x : Ev} (h : Own tr t v) (hs : ∀ id ∈ v.ids, id ∈ v'.ids) (hp : v.pos ≤ v'.pos)
    (h1 : ∀ id, x = .work t id → id ∈ v'.ids) (h2 : ∀ y, change x = some (t, y) → (values tr).length ≤ v'.pos)
    (h3 : x = .took t → ∀ id, Published relPost workOf tr id → id ∈ v'.ids)
    (h4 : ∀ y, x = .joined t y → ∀ id, Published relSignal workOf tr id → id ∈ v'.ids) : Own (tr ++ [x]) t v' where
  work id hm := by
    rcases List.mem_append.mp hm with hm | hm
    · exact hs id (h.work id hm)
    · exact h1 id (List.mem_singleton.mp hm).symm
  mine a e b y he hc := by
    rcases split_snoc he with ⟨b', g1, g2⟩ | ⟨rfl, rfl, rfl⟩
    · exact Nat.le_trans (h.mine a e b' y g1 hc) hp
    · exact h2 y hc
  took a b he id hP := by
    rcases split_snoc he with ⟨b', g1, g2⟩ | ⟨rfl, g, rfl⟩
    · exact hs id (h.took a b' g1 id hP)
    · exact h3 g.symm id hP
  joined a b y he id hP := by
    rcases split_snoc he with ⟨b', g1, g2⟩ | ⟨rfl, g, rfl⟩
    · exact hs id (h.joined a b' y g1 id hP)
    · exact h4 y g.symm id hP

/-- Whose an event is, if it matters for what is observed. -/
def owner : Ev → Option Nat
  | .work t _ | .took t | .joined t _ | .signalled t _ | .withdrew t _ => some t
  | _ => none

theorem Own.other {tr es : List Ev} {t : Nat} {v v' : V} (h : Own tr t v) (hs : ∀ id ∈ v.ids, id ∈ v'.ids) (hp : v.pos ≤ v'.pos)
    (ho : ∀ e ∈ es, owner e ≠ some t) : Own (tr ++ es) t v' := by
  suffices key : ∀ (es : List Ev), (∀ e ∈ es, owner e ≠ some t) → ∀ tr, Own tr t v → Own (tr ++ es) t v by
    have k := key es ho tr h
    exact ⟨fun id hm => hs id (k.work id hm), fun a e b x he hc => Nat.le_trans (k.mine a e b x he hc) hp, fun a b he id hP => hs id (k.took a b he id hP),
      fun a b x he id hP => hs id (k.joined a b x he id hP)⟩
  intro es
  induction es with
  | nil => intro _ tr h; rw [List.append_nil]; exact h
  | cons x es ih =>
    intro ho tr h
    have e : tr ++ x :: es = (tr ++ [x]) ++ es := by simp
    rw [e]
    have hx : owner x ≠ some t := ho x (List.mem_cons_self ..)
    refine ih (fun e he => ho e (List.mem_cons_of_mem _ he)) _ (h.snoc (fun _ h => h) (Nat.le_refl _) ?_ ?_ ?_ ?_)
    · rintro id rfl; exact absurd rfl hx
    · intro y hy
      cases x <;> simp [change] at hy <;> (rw [← hy.1] at hx; exact absurd rfl hx)
    · rintro rfl; exact absurd rfl hx
    · rintro y rfl; exact absurd rfl hx

structure Inv (tr : List Ev) (s : St) : Prop where
  hist : s.hist = values tr
  fresh : ∀ u id, Ev.work u id ∈ tr → id < s.fresh
  view : ∀ (t : Nat) v, s.views[t]? = some v → Ok tr s.fresh v ∧ Own tr t v
  msg : Ok tr s.fresh s.msg
  signal : ∀ id, Published relSignal workOf tr id → id ∈ s.msg.ids
  semMsg : Ok tr s.fresh s.semMsg
  post : ∀ id, Published relPost workOf tr id → id ∈ s.semMsg.ids
  /-- a thread whose work is known has a view -/
  has : ∀ u id, Ev.work u id ∈ tr → ∃ w, s.views[u]? = some w

theorem ok_nil (f : Nat) : Ok [] f ⟨[], 0⟩ := ⟨Nat.zero_lt_one, nofun, fun a e b h => by simp at h⟩

theorem inv_init (n : Nat) : Inv [] (init n) where
  hist := rfl
  fresh := nofun
  view t v h := by
    rw [get_replicate (n := n) (i := t) h]
    exact ⟨ok_nil _, nofun, fun a e b x h => by simp at h, fun a b h => by simp at h, fun a b x h => by simp at h⟩
  msg := ok_nil _
  signal id h := absurd h not_published_nil
  semMsg := ok_nil _
  post id h := absurd h not_published_nil
  has := nofun

/-- What is published by `rel` stays published by what grows, if `es` adds nothing or what is known to the thread. -/
theorem published_keep {rel : Ev → Option Nat} {tr es : List Ev} {m m' : View} (h : ∀ id, Published rel workOf tr id → id ∈ m) (hg : ∀ id ∈ m, id ∈ m')
    (hes : ∀ e ∈ es, ∀ u, rel e = some u → ∀ id, Ev.work u id ∈ tr ++ es → id ∈ m') : ∀ id, Published rel workOf (tr ++ es) id → id ∈ m' := by
  intro id hp
  rcases published_append hp with hp | ⟨e, he, j, w, h1, h2, h3⟩
  · exact hg id (h id hp)
  · have : w = .work j id := by
      cases w <;> simp [workOf] at h3
      rw [h3.1, h3.2]
    subst this
    exact hes e he j h1 id h2

theorem mem_join {a b : V} {id : Nat} : id ∈ (a.join b).ids ↔ id ∈ a.ids ∨ id ∈ b.ids := List.mem_append

/-- The other threads. -/
theorem views_set {s : St} {tr es : List Ev} {t : Nat} {v' : V} {f : Nat} (I : Inv tr s) (hf : s.fresh ≤ f) (hes : ∀ u id, Ev.work u id ∈ es → s.fresh ≤ id)
    (ho : ∀ e ∈ es, ∀ u, owner e = some u → u = t) (hv' : Ok (tr ++ es) f v' ∧ Own (tr ++ es) t v') :
    ∀ (u : Nat) w, (s.views.set t v')[u]? = some w → Ok (tr ++ es) f w ∧ Own (tr ++ es) u w := by
  intro u w hu
  rcases get_set_cases hu with ⟨rfl, rfl⟩ | ⟨hne, h3⟩
  · exact hv'
  · obtain ⟨g1, g2⟩ := I.view u w h3
    refine ⟨g1.append hf (fun u' id hm hi => ?_), g2.other (fun _ h => h) (Nat.le_refl _) (fun e he ho' => ?_)⟩
    · have := hes u' id hm; have := g1.ids id hi; omega
    · exact hne (ho e he u ho').symm

theorem has_set {s : St} {tr es : List Ev} {t : Nat} {v v' : V} (I : Inv tr s) (hv : s.views[t]? = some v) (hes : ∀ u id, Ev.work u id ∈ es → u = t) :
    ∀ u id, Ev.work u id ∈ tr ++ es → ∃ w, (s.views.set t v')[u]? = some w := by
  intro u id hm
  by_cases h : t = u
  · subst h; exact ⟨_, get_set_self hv⟩
  · rcases List.mem_append.mp hm with hm | hm
    · obtain ⟨w, hw⟩ := I.has u id hm
      exact ⟨w, (get_set_ne h).trans hw⟩
    · exact absurd (hes u id hm).symm h

theorem inv_rmw {s : St} {tr : List Ev} {t : Nat} {v : V} {x : Int} {e : Ev} {b : AutoSem.St} (o : Order) (I : Inv tr s) (hv : s.views[t]? = some v)
    (he : change e = some (t, x)) (hr : relSignal e = some t → o.isRelease = true) (ha : e = .joined t x → o.isAcquire = true) :
    Inv (tr ++ [e]) { rmw o s t v x with base := b } := by
  have hnw : ∀ u id, Ev.work u id ∉ [e] := by
    intro u id hm; rw [← List.mem_singleton.mp hm] at he; cases he
  have hlen : (values (tr ++ [e])).length = s.hist.length + 1 := by
    rw [values_append, I.hist]; simp [he]
  obtain ⟨g1, g2⟩ := I.view t v hv
  have k1 : Ok (tr ++ [e]) s.fresh v := g1.append (Nat.le_refl _) (fun u id h => absurd h (hnw u id))
  have k2 : Ok (tr ++ [e]) s.fresh s.msg := I.msg.append (Nat.le_refl _) (fun u id h => absurd h (hnw u id))
  have k3 : Ok (tr ++ [e]) s.fresh s.semMsg := I.semMsg.append (Nat.le_refl _) (fun u id h => absurd h (hnw u id))
  have k4 : Ok (tr ++ [e]) s.fresh { (if o.isAcquire then v.join s.msg else v) with pos := s.hist.length } := by
    split
    · exact (k1.join k2).raise (by have := g1.pos; have := I.msg.pos; rw [I.hist]; simp only [V.join]; omega) (by omega)
    · exact k1.raise (by have := g1.pos; rw [I.hist]; omega) (by omega)
  have hsub : ∀ id ∈ v.ids, id ∈ (if o.isAcquire then v.join s.msg else v).ids := by
    intro id hi
    split
    · exact mem_join.mpr (.inl hi)
    · exact hi
  have howner : ∀ u, owner e = some u → u = t := by
    intro u hu
    cases e <;> simp [change] at he <;> (simp only [owner, Option.some.injEq] at hu; rw [← hu]; exact he.1)
  refine ⟨?_, ?_, views_set I (Nat.le_refl _) (fun u id h => absurd h (hnw u id)) ?_ ⟨k4, ?_⟩, ?_, ?_, k3, ?_, has_set I hv (fun u id h => absurd h (hnw u id))⟩
  · simp only [rmw]
    rw [values_append, I.hist]
    simp [he]
  · intro u id hm
    rcases List.mem_append.mp hm with hm | hm
    · exact I.fresh u id hm
    · exact absurd hm (hnw u id)
  · intro e' he' u hu
    rw [List.mem_singleton.mp he'] at hu
    exact howner u hu
  · refine g2.snoc (v' := { (if o.isAcquire then v.join s.msg else v) with pos := s.hist.length }) hsub ?_ ?_ ?_ ?_ ?_
    · have := g1.pos; rw [I.hist]; exact Nat.le_of_lt this
    · rintro id rfl; cases he
    · intro y _; rw [I.hist]; exact Nat.le_refl _
    · rintro rfl; cases he
    · rintro y rfl
      cases he
      intro id hp
      simp only [ha rfl, if_true]
      exact mem_join.mpr (.inr (I.signal id hp))
  · simp only [rmw]
    split
    · exact k2.join k4
    · exact k2
  · refine published_keep I.signal ?_ ?_
    · intro id hi
      simp only [rmw]
      split
      · exact mem_join.mpr (.inl hi)
      · exact hi
    · intro e' he' u hu id hm
      rw [List.mem_singleton.mp he'] at hu
      have hut : u = t := by
        cases e <;> simp [relSignal] at hu
        rw [← hu]
        simp [change] at he
        exact he.1
      subst hut
      simp only [rmw, hr hu, if_true]
      refine mem_join.mpr (.inr (hsub id (g2.work id ?_)))
      rcases List.mem_append.mp hm with hm | hm
      · exact hm
      · exact absurd hm (hnw u id)
  · refine published_keep I.post (fun _ h => h) ?_
    intro e' he' u hu
    rw [List.mem_singleton.mp he'] at hu
    cases e <;> simp [relPost] at hu
    simp [change] at he

theorem inv_sem {s : St} {tr : List Ev} {t : Nat} {v : V} {e : Ev} {b : AutoSem.St} (o : Order) (I : Inv tr s) (hv : s.views[t]? = some v)
    (he : e = .posted t ∧ o.isRelease = true ∨ e = .took t ∧ o.isAcquire = true) : Inv (tr ++ [e]) { semRmw o s t v with base := b } := by
  have hc : change e = none := by rcases he with ⟨rfl, _⟩ | ⟨rfl, _⟩ <;> rfl
  have hnw : ∀ u id, Ev.work u id ∉ [e] := by
    intro u id hm
    have := List.mem_singleton.mp hm
    rcases he with ⟨rfl, _⟩ | ⟨rfl, _⟩ <;> cases this
  obtain ⟨g1, g2⟩ := I.view t v hv
  have k1 : Ok (tr ++ [e]) s.fresh v := g1.append (Nat.le_refl _) (fun u id h => absurd h (hnw u id))
  have k2 : Ok (tr ++ [e]) s.fresh s.msg := I.msg.append (Nat.le_refl _) (fun u id h => absurd h (hnw u id))
  have k3 : Ok (tr ++ [e]) s.fresh s.semMsg := I.semMsg.append (Nat.le_refl _) (fun u id h => absurd h (hnw u id))
  have k4 : Ok (tr ++ [e]) s.fresh (if o.isAcquire then v.join s.semMsg else v) := by
    split
    · exact k1.join k3
    · exact k1
  have hsub : ∀ id ∈ v.ids, id ∈ (if o.isAcquire then v.join s.semMsg else v).ids := by
    intro id hi
    split
    · exact mem_join.mpr (.inl hi)
    · exact hi
  refine ⟨?_, ?_, views_set I (Nat.le_refl _) (fun u id h => absurd h (hnw u id)) ?_ ⟨k4, ?_⟩, k2, ?_, ?_, ?_, has_set I hv (fun u id h => absurd h (hnw u id))⟩
  · simp only [semRmw]
    rw [values_append, I.hist]
    simp [hc]
  · intro u id hm
    rcases List.mem_append.mp hm with hm | hm
    · exact I.fresh u id hm
    · exact absurd hm (hnw u id)
  · intro e' he' u hu
    rw [List.mem_singleton.mp he'] at hu
    rcases he with ⟨rfl, _⟩ | ⟨rfl, _⟩
    · cases hu
    · cases hu; rfl
  · refine g2.snoc hsub ?_ ?_ ?_ ?_ ?_
    · split
      · simp only [V.join]; omega
      · exact Nat.le_refl _
    · rintro id rfl; exact absurd (List.mem_singleton.mpr rfl) (hnw t id)
    · intro y hy; rw [hc] at hy; cases hy
    · rintro rfl id hp
      rcases he with ⟨h, _⟩ | ⟨_, h⟩
      · cases h
      · rw [if_pos h]; exact mem_join.mpr (.inr (I.post id hp))
    · rintro y rfl; cases hc
  · refine published_keep I.signal (fun _ h => h) ?_
    intro e' he' u hu
    rw [List.mem_singleton.mp he'] at hu
    rcases he with ⟨rfl, _⟩ | ⟨rfl, _⟩ <;> cases hu
  · simp only [semRmw]
    split
    · exact k3.join k4
    · exact k3
  · refine published_keep I.post ?_ ?_
    · intro id hi
      simp only [semRmw]
      split
      · exact mem_join.mpr (.inl hi)
      · exact hi
    · intro e' he' u hu id hm
      rw [List.mem_singleton.mp he'] at hu
      rcases he with ⟨rfl, h⟩ | ⟨rfl, h⟩
      · cases hu
        simp only [semRmw, h, if_true]
        refine mem_join.mpr (.inr (hsub id (g2.work id ?_)))
        rcases List.mem_append.mp hm with hm | hm
        · exact hm
        · exact absurd hm (hnw _ id)
      · cases hu

/-- Actions that change neither `m_state` nor `m_sem`. -/
theorem inv_plain {s s' : St} {tr es : List Ev} {t : Nat} {v v' : V} (I : Inv tr s) (hv : s.views[t]? = some v) (e1 : s'.hist = s.hist) (e2 : s'.msg = s.msg)
    (e3 : s'.semMsg = s.semMsg) (e4 : s'.views = s.views.set t v') (e5 : s'.fresh = s.fresh) (hes : ∀ e ∈ es, owner e = none ∧ relPost e = none)
    (k : Ok tr s.fresh v') (hs : ∀ id ∈ v.ids, id ∈ v'.ids) (hp : v.pos ≤ v'.pos) : Inv (tr ++ es) s' := by
  have hnw : ∀ u id, Ev.work u id ∉ es := by intro u id hm; cases (hes _ hm).1
  have hc : ∀ e ∈ es, change e = none := by
    intro e he
    have := (hes e he).1
    cases e <;> first | rfl | cases this
  obtain ⟨g1, g2⟩ := I.view t v hv
  have up : ∀ {w : V}, Ok tr s.fresh w → Ok (tr ++ es) s.fresh w := fun h => h.append (Nat.le_refl _) (fun u id h => absurd h (hnw u id))
  refine ⟨?_, ?_, ?_, ?_, ?_, ?_, ?_, ?_⟩
  · rw [e1, values_append, I.hist]
    have : es.filterMap (fun e => (change e).map (·.2)) = [] := by
      rw [List.filterMap_eq_nil_iff]
      intro e he; rw [hc e he]; rfl
    rw [this, List.append_nil]
  · intro u id hm
    rw [e5]
    rcases List.mem_append.mp hm with hm | hm
    · exact I.fresh u id hm
    · exact absurd hm (hnw u id)
  · rw [e4, e5]
    refine views_set I (Nat.le_refl _) (fun u id h => absurd h (hnw u id)) ?_ ⟨up k, g2.other hs hp ?_⟩
    · intro e he u hu; rw [(hes e he).1] at hu; cases hu
    · intro e he hu; rw [(hes e he).1] at hu; cases hu
  · rw [e2, e5]; exact up I.msg
  · rw [e2]
    refine published_keep I.signal (fun _ h => h) ?_
    intro e he u hu
    have := (hes e he).1
    cases e <;> first | (cases hu; done) | (cases this; done)
  · rw [e3, e5]; exact up I.semMsg
  · rw [e3]
    refine published_keep I.post (fun _ h => h) ?_
    intro e he u hu
    rw [(hes e he).2] at hu; cases hu
  · rw [e4]; exact has_set I hv (fun u id h => absurd h (hnw u id))

theorem set_self {l : List V} {t : Nat} {v : V} (h : l[t]? = some v) : l.set t v = l := by
  apply List.ext_getElem?
  intro i
  by_cases hi : t = i
  · subst hi; rw [get_set_self h, h]
  · exact get_set_ne hi

theorem inv_step {tr es : List Ev} {s s' : St} {l : Nat × Act} (I : Inv tr s) (h : step s l = some (s', es)) : Inv (tr ++ es) s' := by
  obtain ⟨t, a⟩ := l
  obtain ⟨v, hv, d⟩ := delta_step h
  obtain ⟨g1, g2⟩ := I.view t v hv
  cases d with
  | quiet b es he =>
    refine inv_plain I hv rfl rfl rfl (set_self hv).symm rfl ?_ g1 (fun _ h => h) (Nat.le_refl _)
    intro e hm
    obtain ⟨e', rfl⟩ := he e hm
    exact ⟨rfl, rfl⟩
  | sync u w hw =>
    exact inv_plain I hv rfl rfl rfl rfl rfl nofun (g1.join (I.view u w hw).1) (fun id h => mem_join.mpr (.inl h)) (by simp only [V.join]; omega)
  | load b i x hx hi =>
    refine inv_plain I hv rfl rfl rfl rfl rfl ?_ (g1.raise hi ?_) (fun _ h => h) hi
    · intro e hm
      split at hm
      · rw [List.mem_singleton.mp hm]; exact ⟨rfl, rfl⟩
      · cases hm
    · rw [← I.hist]; exact (List.getElem?_eq_some_iff.mp hx).1
  | signalled b => exact inv_rmw _ I hv rfl (fun _ => rfl) nofun
  | joined b => exact inv_rmw _ I hv rfl nofun (fun _ => rfl)
  | withdrew b => exact inv_rmw _ I hv rfl nofun nofun
  | posted b => exact inv_sem _ I hv (.inl ⟨rfl, rfl⟩)
  | took b => exact inv_sem _ I hv (.inr ⟨rfl, rfl⟩)
  | work hi =>
    have hn : ∀ w : V, Ok tr s.fresh w → Ok (tr ++ [.work t s.fresh]) (s.fresh + 1) w := by
      intro w hw
      refine hw.append (Nat.le_succ _) (fun u id hm hi => ?_)
      cases List.mem_singleton.mp hm
      exact Nat.lt_irrefl _ (hw.ids _ hi)
    refine ⟨?_, ?_, views_set I (Nat.le_succ _) ?_ ?_ ⟨?_, ?_⟩, hn _ I.msg, ?_, hn _ I.semMsg, ?_, has_set I hv ?_⟩
    · rw [values_append]; simp [I.hist, change]
    · intro u id hm
      rcases List.mem_append.mp hm with hm | hm
      · exact Nat.lt_succ_of_lt (I.fresh u id hm)
      · cases List.mem_singleton.mp hm; exact Nat.lt_succ_self _
    · intro u id hm; cases List.mem_singleton.mp hm; exact Nat.le_refl _
    · intro e he u hu; rw [List.mem_singleton.mp he] at hu; cases hu; rfl
    · refine ⟨Nat.lt_of_lt_of_le g1.pos (values_le _ _), ?_, ?_⟩
      · intro id hm
        rcases List.mem_append.mp hm with hm | hm
        · exact Nat.lt_succ_of_lt (g1.ids id hm)
        · rw [List.mem_singleton.mp hm]; exact Nat.lt_succ_self _
      · intro a e b he u x id hc hw hm
        rcases split_snoc he with ⟨b', h1, rfl⟩ | ⟨_, _, rfl⟩
        · rcases List.mem_append.mp hw with hw | hw
          · rcases List.mem_append.mp hm with hm | hm
            · exact g1.old a e b' h1 u x id hc hw hm
            · have := I.fresh u id (by rw [h1]; simp [hw])
              rw [List.mem_singleton.mp hm] at this
              exact absurd this (Nat.lt_irrefl _)
          · cases List.mem_singleton.mp hw
            exact g2.mine a e b' x h1 hc
        · cases hw
    · refine g2.snoc (fun id h => List.mem_append_left _ h) (Nat.le_refl _) ?_ nofun nofun nofun
      intro id h; cases h; simp
    · exact published_keep I.signal (fun _ h => h) (fun e he u hu => by rw [List.mem_singleton.mp he] at hu; cases hu)
    · exact published_keep I.post (fun _ h => h) (fun e he u hu => by rw [List.mem_singleton.mp he] at hu; cases hu)
    · intro u id hm; cases List.mem_singleton.mp hm; rfl

theorem inv_exec {n : Nat} {tr : List Ev} {s : St} (h : Exec step (init n) tr s) : Inv tr s :=
  h.invariant Inv (inv_init n) (fun _ _ _ _ _ I hs => inv_step I hs)

/-- Every value of `m_state` was its value at some instant. -/
theorem instant {n : Nat} {tr : List Ev} {s : St} (h : Exec step (init n) tr s) {i : Nat} {x : Int} (hx : s.hist[i]? = some x) :
    ∃ tr₁ s₁ tr₂, tr = tr₁ ++ tr₂ ∧ Exec step (init n) tr₁ s₁ ∧ Exec step s₁ tr₂ s ∧ (values tr₁).length = i + 1 ∧ s₁.base.state = x := by
  rw [(inv_exec h).hist] at hx
  induction h with
  | init =>
    cases i with
    | zero => cases hx; exact ⟨[], _, [], rfl, .init, .init, rfl, rfl⟩
    | succ i => simp [values] at hx
  | snoc hE hs ih =>
    rename_i tr s s' l es
    by_cases hi : i < (values tr).length
    · rw [values_append, List.getElem?_append_left hi] at hx
      obtain ⟨tr₁, s₁, tr₂, e, h1, h2, h3, h4⟩ := ih hx
      exact ⟨tr₁, s₁, tr₂ ++ es, by rw [e, List.append_assoc], h1, h2.snoc hs, h3, h4⟩
    · rw [values_append, List.getElem?_append_right (Nat.le_of_not_lt hi)] at hx
      refine ⟨tr ++ es, s', [], (List.append_nil _).symm, hE.snoc hs, .init, ?_⟩
      obtain ⟨t, a⟩ := l
      obtain ⟨v, hv, d⟩ := delta_step hs
      have one : ∀ (e : Ev) (y : Int), change e = some (t, y) →
          (List.filterMap (fun e => (change e).map (·.2)) [e])[i - (values tr).length]? = some x → (values (tr ++ [e])).length = i + 1 ∧ y = x := by
        intro e y hc h
        simp only [List.filterMap_cons, hc, Option.map_some, List.filterMap_nil] at h
        obtain ⟨h1, h2⟩ := List.getElem?_eq_some_iff.mp h
        simp only [List.length_singleton] at h1
        refine ⟨?_, by simpa using h2⟩
        rw [values_append]
        simp [hc]
        omega
      cases d with
      | quiet b es he =>
        exfalso
        have : es.filterMap (fun e => (change e).map (·.2)) = [] := by
          rw [List.filterMap_eq_nil_iff]
          intro e hm; obtain ⟨e', rfl⟩ := he e hm; rfl
        rw [this] at hx; simp at hx
      | work hi => simp [change] at hx
      | sync u w hw => simp at hx
      | load b j y hy hj =>
        split at hx <;> simp [change] at hx
      | signalled b => exact one _ _ rfl hx
      | joined b => exact one _ _ rfl hx
      | withdrew b => exact one _ _ rfl hx
      | posted b => simp [change] at hx
      | took b => simp [change] at hx

/-- The newest value of `m_state`. -/
theorem last_step {s s' : St} {l : Nat × Act} {es : List Ev} (hl : s.hist.getLast? = some s.base.state) (h : step s l = some (s', es)) :
    s'.hist.getLast? = some s'.base.state := by
  obtain ⟨t, a⟩ := l
  unfold step at h
  simp only at h
  split at h
  · next pc v ht hv =>
    split at h
    · split at h
      · cases h; exact hl
      · cases h
    · split at h
      · split at h
        · cases h; exact hl
        · cases h
      · cases h
    · split at h
      · cases h
      · split at h
        · cases h; exact hl
        · cases h
    · next a =>
      split at h
      · next hd =>
        split at h
        · cases h
        · next b es' hb =>
          cases h
          unfold AutoSem.step at hb
          simp only [ht] at hb
          split at hb
          · cases hb; exact hl
          · cases hb; exact hl
          · cases hd
          · have : s.base.state = _ := of_decide_eq_true hd
            rw [if_pos this] at hb
            cases hb
            simp [observe, rmw]
          · cases hd
          · cases hb; exact hl
          · cases hb; simp [observe, rmw]
          · split at hb
            · cases hb
              unfold observe
              simp only
              split <;> exact hl
            · split at hb
              · cases hb
                unfold observe
                simp only
                split <;> exact hl
              · cases hb
          · split at hb
            · cases hb
              unfold observe
              simp only
              split <;> exact hl
            · cases hb
          · cases hb
            unfold observe
            simp only
            split <;> exact hl
          · cases hb; simp [observe, rmw]
          · cases hb; exact hl
          · cases hb
      · cases h
  · cases h

theorem last_exec {n : Nat} {tr : List Ev} {s : St} (h : Exec step (init n) tr s) : s.hist.getLast? = some s.base.state :=
  h.invariant' (fun s => s.hist.getLast? = some s.base.state) rfl (fun _ _ _ _ hl hs => last_step hl hs)

/-! ## How calls end -/

theorem Caused.append {t : Nat} {op : Atomic.Op One} {r : Bool} {tr es : List Ev} (h : Caused t op r tr) (hs : Silent t es) : Caused t op r (tr ++ es) := by
  obtain ⟨a, e, b, h1, h2, h3⟩ := h
  refine ⟨a, e, b ++ es, by rw [h1]; simp, h2, fun e' hm => ?_⟩
  rcases List.mem_append.mp hm with hm | hm
  · exact h3 e' hm
  · exact hs e' hm

theorem silent_other {s s' : AutoSem.St} {t u : Nat} {a : AutoSem.Act} {es : List (Atomic.Ev One)} (h : AutoSem.step s (t, a) = some (s', es)) (hu : t ≠ u) :
    (∀ e ∈ es, e.silentFor u = true) ∧ s'.ths[u]? = s.ths[u]? := by
  have hb : (t != u) = true := by simpa using hu
  unfold AutoSem.step at h
  simp only at h
  repeat' split at h
  all_goals first
    | (cases h; done)
    | (cases h
       refine ⟨?_, get_set_ne hu⟩
       intro e he
       first
         | (cases he; done)
         | (rw [List.mem_singleton.mp he]; first | exact hb | rfl))

/-- A call that is about to end. -/
theorem leave_step {s s' : St} {t u : Nat} {a : Act} {es : List Ev} {op : Atomic.Op One} {r : Bool} (h : step s (t, a) = some (s', es))
    (hu : s'.base.ths[u]? = some (.leave op r)) :
    (s.base.ths[u]? = some (.leave op r) ∧ Silent u es) ∨ (∃ k, op = .acq k ∧ r = false) ∨ ∃ a e, es = a ++ [e] ∧ Cause u op r e := by
  unfold step at h
  simp only at h
  split at h
  · next pc v ht hv =>
    split at h
    · split at h
      · cases h; exact .inl ⟨hu, fun e he => by rw [List.mem_singleton.mp he]; nofun⟩
      · cases h
    · split at h
      · split at h
        · cases h; exact .inl ⟨hu, nofun⟩
        · cases h
      · cases h
    · split at h
      · cases h
      · next x hx =>
        split at h
        · next hc =>
          cases h
          rcases get_set_cases hu with ⟨rfl, h'⟩ | ⟨_, h'⟩
          · unfold seen at h'
            split at h'
            · cases h'
            · next hneg =>
              cases h'
              have hx' : x < 0 := by omega
              rw [if_pos hx']
              exact .inr (.inr ⟨[], _, rfl, .inr rfl⟩)
          · refine .inl ⟨h', fun e he => ?_⟩
            split at he
            · rw [List.mem_singleton.mp he]; nofun
            · cases he
        · cases h
    · next a =>
      split at h
      · next hd =>
        split at h
        · cases h
        · next b es' hb =>
          cases h
          have hplain : ∀ e ∈ (observe s t v pc b).2, ∀ e', e = Ev.ev e' → False := by
            intro e he e' h
            subst h
            unfold observe at he
            repeat' split at he
            all_goals simp at he
          by_cases htu : t = u
          · subst htu
            unfold AutoSem.step at hb
            simp only [ht] at hb
            simp only at hu
            split at hb
            · cases hb; rw [get_set_self ht] at hu; cases hu
            · cases hb; rw [get_set_self ht] at hu; cases hu
            · cases hd
            · have : s.base.state = _ := of_decide_eq_true hd
              rw [if_pos this] at hb
              cases hb; rw [get_set_self ht] at hu; cases hu
            · cases hd
            · cases hb; rw [get_set_self ht] at hu; cases hu
              exact .inr (.inr ⟨[], _, rfl, .inl rfl⟩)
            · cases hb; rw [get_set_self ht] at hu; cases hu
            · split at hb
              · next h0 =>
                cases hb; rw [get_set_self ht] at hu; cases hu
                refine .inr (.inr ⟨[], .took t, ?_, fun _ => rfl⟩)
                simp only [observe]
                rw [if_pos (by omega)]
                rfl
              · split at hb
                · cases hb; rw [get_set_self ht] at hu; cases hu
                · cases hb
            · split at hb
              · cases hb; rw [get_set_self ht] at hu; cases hu
              · cases hb
            · cases hb; rw [get_set_self ht] at hu; cases hu
            · cases hb; rw [get_set_self ht] at hu; cases hu
              exact .inr (.inl ⟨_, rfl, rfl⟩)
            · cases hb; rw [get_set_self ht] at hu; cases hu
            · cases hb
          · obtain ⟨h1, h2⟩ := silent_other hb htu
            refine .inl ⟨h2 ▸ hu, fun e he e' h => ?_⟩
            rcases List.mem_append.mp he with he | he
            · obtain ⟨e'', hm, rfl⟩ := List.mem_map.mp he
              cases h
              exact h1 _ hm
            · exact absurd h (fun h => hplain e he e' h)
      · cases h
  · cases h

/-- The return of a call. -/
theorem ret_step {s s' : St} {t u : Nat} {a : Act} {es : List Ev} {op : Atomic.Op One} {r : Bool} (h : step s (t, a) = some (s', es))
    (hm : Ev.ev (.ret u op r) ∈ es) : s.base.ths[u]? = some (.leave op r) ∧ es = [Ev.ev (.ret u op r)] := by
  unfold step at h
  simp only at h
  split at h
  · next pc v ht hv =>
    split at h
    · split at h
      · cases h; simp at hm
      · cases h
    · split at h
      · split at h
        · cases h; cases hm
        · cases h
      · cases h
    · split at h
      · cases h
      · split at h
        · cases h
          split at hm <;> simp at hm
        · cases h
    · next a =>
      split at h
      · split at h
        · cases h
        · next b es' hb =>
          cases h
          have hplain : Ev.ev (.ret u op r) ∉ (observe s t v pc b).2 := by
            intro he
            unfold observe at he
            repeat' split at he
            all_goals simp at he
          rcases List.mem_append.mp hm with hm1 | hm1
          · obtain ⟨e'', hm2, h⟩ := List.mem_map.mp hm1
            cases h
            clear hplain hm hm1
            unfold AutoSem.step at hb
            simp only [ht] at hb
            repeat' split at hb
            all_goals first
              | (cases hb; done)
              | (cases hb; cases hm2; done)
              | (cases hb; cases List.mem_singleton.mp hm2; done)
              | (cases hb; cases List.mem_singleton.mp hm2; exact ⟨ht, rfl⟩)
          · exact absurd hm1 hplain
      · cases h
  · cases h

theorem leave_exec {n : Nat} {tr : List Ev} {s : St} (h : Exec step (init n) tr s) :
    ∀ (u : Nat) op r, s.base.ths[u]? = some (.leave op r) → (∃ k, op = .acq k ∧ r = false) ∨ Caused u op r tr := by
  refine h.invariant (fun tr s => ∀ (u : Nat) op r, s.base.ths[u]? = some (.leave op r) → (∃ k, op = .acq k ∧ r = false) ∨ Caused u op r tr) ?_ ?_
  · intro u op r h
    have := get_replicate (n := n) (i := u) h
    cases this
  · intro tr s l s' es I hs u op r hu
    obtain ⟨t, a⟩ := l
    rcases leave_step hs hu with ⟨h1, h2⟩ | h | ⟨a, e, h1, h2⟩
    · exact (I u op r h1).imp_right (·.append h2)
    · exact .inl h
    · exact .inr ⟨tr ++ a, e, [], by rw [h1, List.append_assoc], h2, nofun⟩

theorem ret_exec {n : Nat} {tr : List Ev} {s : St} (h : Exec step (init n) tr s) {a b : List Ev} {t : Nat} {op : Atomic.Op One} {r : Bool}
    (e : tr = a ++ .ev (.ret t op r) :: b) : (∃ k, op = .acq k ∧ r = false) ∨ Caused t op r a := by
  induction h generalizing b with
  | init => simp at e
  | snoc hE hs ih =>
    rcases split_append e with ⟨b', h1, h2⟩ | ⟨c, h1, h2⟩
    · exact ih h1
    · obtain ⟨h3, h4⟩ := ret_step hs (u := t) (op := op) (r := r) (by rw [h2]; simp)
      rw [h4] at h2
      cases c with
      | nil => rw [h1, List.append_nil]; exact leave_exec hE t op r h3
      | cons x c => simp at h2

end Verif.AutoSemOrder
