import Verif.Spec.TssAlloc
import Verif.Base.Count

/-! Lemmas for C86. -/

namespace Verif.TssAlloc

theorem get_eq (s : St) (t k : Nat) : s.get t k = valueOf s t k := by
  unfold St.get valueOf ctxOf
  cases h : s.slots[t]? with
  | none => simp
  | some o => cases o <;> simp [Ctx.get]

/-- The possible results of `withCtx`. -/
theorem withCtx_cases (s : St) (t : Nat) (f : Fails) :
    (∃ c, ctxOf s t = some c ∧ withCtx s t f = (s, some .slot)) ∨
    (ctxOf s t = none ∧ f.context = true ∧ withCtx s t f = (s, none)) ∨
    (ctxOf s t = none ∧ f.lock = true ∧ withCtx s t f = ({ s with lost := s.lost ++ [⟨[], [], []⟩] }, none)) ∨
    (ctxOf s t = none ∧ f.slot = true ∧ withCtx s t f = ({ s with lost := s.lost ++ [⟨[], [], []⟩] }, some .nowhere)) ∨
    (ctxOf s t = none ∧ withCtx s t f = ({ s with slots := s.slots.set t (some ⟨[], [], []⟩) }, some .slot)) := by
  unfold withCtx ctxOf
  cases h : s.slots[t]? with
  | none => simp; cases f.context <;> cases f.lock <;> cases f.slot <;> simp
  | some o =>
    cases o
    · simp; cases f.context <;> cases f.lock <;> cases f.slot <;> simp
    · simp

theorem ctxOf_set {s : St} {t : Nat} (ht : t < s.slots.length) (o : Option Ctx) (u : Nat) :
    ((s.slots.set t o)[u]?).join = if u = t then o else ctxOf s u := by
  unfold ctxOf
  by_cases h : u = t
  · subst h; simp [ht]
  · rw [List.getElem?_set_ne (Ne.symm h)]; simp [h]

theorem same_refl (s : St) : Same s s := ⟨fun _ _ => rfl, fun _ => rfl, fun _ => rfl, rfl, rfl, rfl, rfl, rfl⟩

theorem lt_of_allowed {s : St} {op : Op} {t : Nat} (ha : allowed s op = true) (hc : op.creator = some t) : t < s.slots.length := by
  cases op <;> simp_all [allowed, Op.creator]

/-- A fresh context changes nothing. -/
theorem same_fresh {s : St} {t : Nat} (ht : t < s.slots.length) (hc : ctxOf s t = none) :
    Same s { s with slots := s.slots.set t (some ⟨[], [], []⟩) } := by
  have h := ctxOf_set ht (some ⟨[], [], []⟩)
  refine ⟨fun u k => ?_, fun u => ?_, fun u => ?_, rfl, rfl, rfl, rfl, rfl⟩
  all_goals
    simp only [valueOf, callbacksOf, notifsOf]
    rw [show ctxOf { s with slots := s.slots.set t (some ⟨[], [], []⟩) } u = _ from h u]
    by_cases hu : u = t
    · subst hu; simp [hc]
    · simp [hu]

/-- Under `Sound` a context is found or created, or nothing happens. -/
theorem withCtx_sound {s : St} {t : Nat} {f : Fails} (ht : t < s.slots.length)
    (hS : ctxOf s t = none → f.lock = false ∧ f.slot = false) :
    withCtx s t f = (s, none) ∨
    ∃ s1 c, withCtx s t f = (s1, some .slot) ∧ Same s s1 ∧ s1.next = s.next ∧ ctxOf s1 t = some c ∧ t < s1.slots.length := by
  rcases withCtx_cases s t f with ⟨c, hc, he⟩ | ⟨hc, _, he⟩ | ⟨hc, hl, he⟩ | ⟨hc, hl, he⟩ | ⟨hc, he⟩
  · exact .inr ⟨_, c, he, same_refl s, rfl, hc, ht⟩
  · exact .inl he
  · exact absurd hl (by simp [(hS hc).1])
  · exact absurd hl (by simp [(hS hc).2])
  · refine .inr ⟨_, ⟨[], [], []⟩, he, same_fresh ht hc, rfl, ?_, by simpa using ht⟩
    have := ctxOf_set ht (some ⟨[], [], []⟩) t
    simpa [ctxOf] using this

theorem upd_slot {s : St} {t : Nat} {c : Ctx} (hc : ctxOf s t = some c) (g : Ctx → Ctx) :
    upd s t .slot g = { s with slots := s.slots.set t (some (g c)) } := by
  unfold upd
  unfold ctxOf at hc
  cases h : s.slots[t]? with
  | none => simp [h] at hc
  | some o => simp [h] at hc; subst hc; rfl

theorem size_slot {s : St} {t : Nat} {c : Ctx} (hc : ctxOf s t = some c) : size s t .slot = c.storage.length := by
  unfold size
  unfold ctxOf at hc
  cases h : s.slots[t]? with
  | none => simp [h] at hc
  | some o => simp [h] at hc; subst hc; rfl

theorem put_get (l : List (Option Nat)) (k : Nat) (v : Option Nat) (j : Nat) :
    ((put l k v)[j]?).join = if j = k then v else (l[j]?).join := by
  unfold put
  rw [List.getElem?_set]
  by_cases h : k = j
  · subst h
    simp only [List.length_append, List.length_replicate]
    rw [if_pos trivial, if_pos (by omega), if_pos trivial]
    rfl
  · simp only [h, if_false, Ne.symm h]
    rw [List.getElem?_append]
    split
    · rfl
    · next hn =>
      rw [List.getElem?_replicate, List.getElem?_eq_none (by omega)]
      split <;> rfl

/-- What the other functions see after the context of `t` has become `c'`. -/
theorem ctxOf_upd {s : St} {t : Nat} {c' : Ctx} (ht : t < s.slots.length) (u : Nat) :
    ctxOf { s with slots := s.slots.set t (some c') } u = if u = t then some c' else ctxOf s u := ctxOf_set ht _ u

/-- `set` under `Sound`. -/
theorem set_sound {s : St} {t k : Nat} {v : Option Nat} {f : Fails} (ht : t < s.slots.length)
    (hS : ctxOf s t = none → f.lock = false ∧ f.slot = false) :
    (∃ s1, set s t k v f = (s1, .threw) ∧ Same s s1) ∨
    ∃ s1, set s t k v f = (s1, .done) ∧ (∀ u j, valueOf s1 u j = if u = t ∧ j = k then v else valueOf s u j) ∧
      ∀ u, callbacksOf s1 u = callbacksOf s u ∧ notifsOf s1 u = notifsOf s u := by
  rcases withCtx_sound ht hS with he | ⟨s1, c, he, hs, _, hc, ht1⟩
  · exact .inl ⟨s, by simp [set, he], same_refl s⟩
  · by_cases hg : k ≥ size s1 t .slot ∧ f.grow = true
    · exact .inl ⟨s1, by unfold set; rw [he]; simp only; rw [if_pos hg], hs⟩
    · refine .inr ⟨_, by unfold set; rw [he]; simp only; rw [if_neg hg], ?_, ?_⟩
      · intro u j
        rw [upd_slot hc, ← hs.values u j]
        unfold valueOf
        rw [ctxOf_upd ht1]
        by_cases hu : u = t
        · subst hu; simp [hc, put_get]
        · simp [hu]
      · intro u
        rw [upd_slot hc, ← hs.callbacks u, ← hs.notifs u]
        unfold callbacksOf notifsOf
        rw [ctxOf_upd ht1]
        by_cases hu : u = t
        · subst hu; simp [hc]
        · simp [hu]

/-- A context that holds a value for the key need not grow. -/
theorem set_value {s : St} {t k : Nat} {v : Option Nat} {f : Fails} (hv : valueOf s t k ≠ none) : (set s t k v f).2 = .done := by
  obtain ⟨c, hc, hk⟩ : ∃ c, ctxOf s t = some c ∧ k < c.storage.length := by
    unfold valueOf at hv
    cases hc : ctxOf s t with
    | none => simp [hc] at hv
    | some c =>
      refine ⟨c, rfl, ?_⟩
      simp only [hc, Option.bind_some] at hv
      exact Decidable.byContradiction fun hn => hv (by rw [List.getElem?_eq_none (by omega)]; rfl)
  rcases withCtx_cases s t f with ⟨c', hc', he⟩ | ⟨hn, _⟩ | ⟨hn, _⟩ | ⟨hn, _⟩ | ⟨hn, _⟩
  · unfold set
    rw [he]
    simp only
    rw [size_slot hc, if_neg (by omega)]
  all_goals rw [hc] at hn; cases hn

theorem release_done (s : St) (t k : Nat) (f : Fails) : (release s t k f).2.1 = .done := by
  unfold release
  split
  · rfl
  · next h =>
    rw [get_eq] at h
    have := set_value (v := none) (f := f) h
    generalize set s t k none f = x at this
    obtain ⟨s', r⟩ := x
    simp only at this
    subst this
    rfl

theorem release_ptr (s : St) (t k : Nat) (f : Fails) : (release s t k f).2.2 = valueOf s t k := by
  unfold release
  rw [get_eq]
  split
  · next h => exact h.symm
  · next h =>
    have := set_value (v := none) (f := f) h
    generalize set s t k none f = x at this
    obtain ⟨s', r⟩ := x
    simp only at this
    subst this
    rfl

/-- A failed call changes nothing. -/
theorem call_threw {s : St} {op : Op} {f : Fails} (ha : allowed s op = true) (hS : Sound s op f) (h : (call s op f).2.1 = .threw) :
    Same s (call s op f).1 ∧ (call s op f).2.2 = [] := by
  cases op with
  | reset t k v =>
    have ht := lt_of_allowed ha (t := t) rfl
    simp only [call, reset] at h ⊢
    split
    · next he => simp [he] at h
    · next he =>
      rw [if_neg he] at h
      rcases set_sound (k := k) (v := v) ht (hS t rfl) with ⟨s1, e, hs⟩ | ⟨s1, e, _⟩
      · simp [e, hs]
      · simp [e] at h
  | release t k =>
    have := release_done s t k f
    simp only [call] at h
    rw [this] at h
    cases h
  | atThreadExit t =>
    have ht := lt_of_allowed ha (t := t) rfl
    simp only [call, atThreadExit] at h ⊢
    by_cases hf : f.functor = true
    · simp [hf, same_refl]
    · simp only [hf] at h ⊢
      rcases withCtx_sound (s := { s with functors := s.next :: s.functors, next := s.next + 1 }) (f := f) ht (hS t rfl) with
        he | ⟨s1, c, he, hs, _, hc, _⟩
      · simp only [he]
        simp
        exact ⟨fun _ _ => rfl, fun _ => rfl, fun _ => rfl, rfl, rfl, rfl, rfl, rfl⟩
      · simp only [he] at h ⊢
        by_cases hg : f.grow = true
        · simp only [hg]
          have := hs.functors
          simp at this
          refine ⟨⟨hs.values, hs.callbacks, hs.notifs, ?_, hs.locked, hs.table, hs.freed, hs.lost⟩, rfl⟩
          simp [this]
        · simp [hg] at h
  | notifyAtExit t m =>
    have ht := lt_of_allowed ha (t := t) rfl
    simp only [call, notifyAtExit] at h ⊢
    rcases withCtx_sound (s := { s with locked := m :: s.locked }) (f := f) ht (hS t rfl) with he | ⟨s1, c, he, hs, _, hc, _⟩
    · simp only [he]
      refine ⟨⟨fun _ _ => rfl, fun _ => rfl, fun _ => rfl, rfl, ?_, rfl, rfl, rfl⟩, trivial⟩
      simp
    · simp only [he] at h ⊢
      by_cases hg : f.grow = true
      · simp only [hg]
        have := hs.locked
        simp at this
        refine ⟨⟨hs.values, hs.callbacks, hs.notifs, hs.functors, ?_, hs.table, hs.freed, hs.lost⟩, trivial⟩
        simp [this]
      · simp [hg] at h
  | newKey c =>
    simp only [call, newKey] at h ⊢
    split
    · exact ⟨same_refl s, rfl⟩
    · next hl =>
      rw [if_neg hl] at h
      split
      · next k ks hk => simp [hk] at h
      · next hk =>
        simp only [hk] at h
        split
        · exact ⟨same_refl s, rfl⟩
        · next hg => simp [hg] at h
  | deleteKey k =>
    simp only [call, deleteKey] at h
    split at h <;> cases h
  | exit t =>
    simp only [call, threadExit] at h
    split at h
    · simp only at h
      split at h <;> cases h
    · cases h

/-! ### What is owned by the contexts -/

/-- Everything of one kind that the contexts hold. -/
def load (g : Ctx → List Nat) (s : St) : List Nat := s.slots.flatMap (fun o => (o.map g).getD []) ++ s.lost.flatMap g

theorem count_flatMap_set {α : Type} (g : α → List Nat) (x : Nat) : ∀ {l : List α} {t : Nat} {a : α}, l[t]? = some a → ∀ b,
    ((l.set t b).flatMap g).count x + (g a).count x = (l.flatMap g).count x + (g b).count x
  | [], _, _, h, _ => by simp at h
  | y :: l, 0, a, h, b => by
    simp only [List.getElem?_cons_zero, Option.some.injEq] at h
    subst h
    simp only [List.set_cons_zero, List.flatMap_cons, List.count_append]
    omega
  | y :: l, t + 1, a, h, b => by
    have := count_flatMap_set g x (l := l) (t := t) (a := a) (by simpa using h) b
    simp only [List.set_cons_succ, List.flatMap_cons, List.count_append]
    omega

theorem slots_of_ctxOf {s : St} {t : Nat} {c : Ctx} (h : ctxOf s t = some c) : s.slots[t]? = some (some c) := by
  unfold ctxOf at h
  cases hs : s.slots[t]? with
  | none => simp [hs] at h
  | some o => simp [hs] at h; rw [h]

/-- Where `withCtx` says the context is there is one. -/
def Valid (s : St) (t : Nat) : Place → Prop
  | .slot => ∃ c, ctxOf s t = some c
  | .nowhere => s.lost ≠ []

/-- `withCtx` adds at most an empty context. -/
theorem withCtx_load {s s1 : St} {t : Nat} {f : Fails} {o : Option Place} (ht : t < s.slots.length) (h : withCtx s t f = (s1, o)) :
    (∀ g : Ctx → List Nat, g ⟨[], [], []⟩ = [] → ∀ x, (load g s1).count x = (load g s).count x) ∧
    s1.functors = s.functors ∧ s1.locked = s.locked ∧ s1.next = s.next ∧ s1.slots.length = s.slots.length ∧
    (∀ p, o = some p → Valid s1 t p) := by
  rcases withCtx_cases s t f with ⟨c, hc, he⟩ | ⟨hc, _, he⟩ | ⟨hc, _, he⟩ | ⟨hc, _, he⟩ | ⟨hc, he⟩
  all_goals
    rw [he] at h
    cases h
  · refine ⟨fun g hg x => rfl, rfl, rfl, rfl, rfl, ?_⟩
    intro p hp; cases hp; exact ⟨c, hc⟩
  · exact ⟨fun g hg x => rfl, rfl, rfl, rfl, rfl, nofun⟩
  · exact ⟨fun g hg x => by simp [load, hg], rfl, rfl, rfl, rfl, nofun⟩
  · refine ⟨fun g hg x => by simp [load, hg], rfl, rfl, rfl, rfl, ?_⟩
    intro p hp; cases hp; simp [Valid]
  · refine ⟨fun g hg x => ?_, rfl, rfl, rfl, by simp, ?_⟩
    · obtain ⟨o, ho⟩ : ∃ o, s.slots[t]? = some o := ⟨_, List.getElem?_eq_getElem ht⟩
      have hn : o = none := by simpa [ctxOf, ho] using hc
      subst hn
      have := count_flatMap_set (fun o : Option Ctx => (o.map g).getD []) x ho (some ⟨[], [], []⟩)
      simp only [load, List.count_append]
      simp [hg] at this
      omega
    · intro p hp
      cases hp
      exact ⟨_, by rw [ctxOf_upd ht, if_pos rfl]⟩

theorem load_upd {s : St} {t : Nat} {p : Place} {g : Ctx → List Nat} {h : Ctx → Ctx} {d : List Nat} (hv : Valid s t p)
    (hg : ∀ c, g (h c) = g c ++ d) (x : Nat) : (load g (upd s t p h)).count x = (load g s).count x + d.count x := by
  cases p with
  | slot =>
    obtain ⟨c, hc⟩ := hv
    rw [upd_slot hc]
    have := count_flatMap_set (fun o : Option Ctx => (o.map g).getD []) x (slots_of_ctxOf hc) (some (h c))
    simp only [load, List.count_append]
    simp only [Option.map_some, Option.getD_some, hg, List.count_append] at this
    omega
  | nowhere =>
    have hl : s.lost.dropLast ++ [s.lost.getLast hv] = s.lost := List.dropLast_concat_getLast hv
    have e : s.lost.getLast? = some (s.lost.getLast hv) := List.getLast?_eq_some_getLast hv
    simp only [load, upd, e, Option.map_some, Option.toList_some, List.count_append, List.flatMap_append, List.flatMap_cons,
      List.flatMap_nil, List.append_nil, hg]
    rw [show s.lost.flatMap g = (s.lost.dropLast ++ [s.lost.getLast hv]).flatMap g by rw [hl]]
    simp only [List.count_append, List.flatMap_append, List.flatMap_cons, List.flatMap_nil, List.append_nil]
    omega

theorem upd_rest (s : St) (t : Nat) (p : Place) (h : Ctx → Ctx) : (upd s t p h).functors = s.functors ∧
    (upd s t p h).locked = s.locked ∧ (upd s t p h).next = s.next := by
  unfold upd
  cases p
  · simp only
    split <;> exact ⟨rfl, rfl, rfl⟩
  · exact ⟨rfl, rfl, rfl⟩

theorem count_foldl_erase (x : Nat) : ∀ (l s : List Nat), (l.foldl List.erase s).count x = s.count x - l.count x
  | [], s => by simp
  | y :: l, s => by
    rw [List.foldl_cons, count_foldl_erase x l, List.count_erase, List.count_cons]
    split <;> simp_all <;> omega

theorem load_map {g : Ctx → List Nat} {h : Ctx → Ctx} (hg : ∀ c, g (h c) = g c) (s : St) :
    load g { s with slots := s.slots.map (Option.map h), lost := s.lost.map h } = load g s := by
  simp only [load, List.flatMap_map]
  congr 1
  · congr 1; funext o; cases o <;> simp [hg]
  · congr 1; funext c; exact hg c

/-- What one call does to the function objects and to the mutexes, whatever fails. -/
structure Balance (s : St) (r : Outcome) (es : List Ev) (s' : St) : Prop where
  made : keptIn es = [] ∧ s'.next ≥ s.next ∨ keptIn es = [s.next] ∧ s'.next = s.next + 1
  functors : ∀ x, s.functors.count x + (keptIn es).count x = s'.functors.count x + (calledIn es).count x
  held : r ≠ .aborted → ∀ x, (load (·.atExit) s').count x + (calledIn es).count x = (load (·.atExit) s).count x + (keptIn es).count x
  locked : r ≠ .aborted → ∀ x, (load (·.notify) s').count x + s.locked.count x = (load (·.notify) s).count x + s'.locked.count x

/-- A call of which nothing is seen by the function objects and the mutexes. -/
theorem balance_of {s s' : St} {r : Outcome} {es : List Ev} (hk : keptIn es = []) (hc : calledIn es = []) (hn : s'.next = s.next)
    (hf : s'.functors = s.functors) (hl : s'.locked = s.locked)
    (h1 : ∀ x, (load (·.atExit) s').count x = (load (·.atExit) s).count x)
    (h2 : ∀ x, (load (·.notify) s').count x = (load (·.notify) s).count x) : Balance s r es s' := by
  refine ⟨.inl ⟨hk, by omega⟩, fun x => ?_, fun _ x => ?_, fun _ x => ?_⟩
  · rw [hf, hk, hc]
  · rw [hk, hc, h1]
  · rw [hl, h2]

theorem set_balance {s : St} {t k : Nat} {v : Option Nat} {f : Fails} (ht : t < s.slots.length) :
    (set s t k v f).1.next = s.next ∧ (set s t k v f).1.functors = s.functors ∧ (set s t k v f).1.locked = s.locked ∧
    (∀ x, (load (·.atExit) (set s t k v f).1).count x = (load (·.atExit) s).count x) ∧
    ∀ x, (load (·.notify) (set s t k v f).1).count x = (load (·.notify) s).count x := by
  unfold set
  generalize hw : withCtx s t f = w
  obtain ⟨s1, o⟩ := w
  obtain ⟨h1, h2, h3, h4, _, h6⟩ := withCtx_load ht hw
  cases o with
  | none => exact ⟨h4, h2, h3, h1 _ rfl, h1 _ rfl⟩
  | some p =>
    simp only
    split
    · exact ⟨h4, h2, h3, h1 _ rfl, h1 _ rfl⟩
    · obtain ⟨e1, e2, e3⟩ := upd_rest s1 t p fun c => { c with storage := put c.storage k v }
      refine ⟨e3.trans h4, e1.trans h2, e2.trans h3, fun x => ?_, fun x => ?_⟩
      · rw [load_upd (d := []) (h6 p rfl) (fun c => by simp), h1 _ rfl]; simp
      · rw [load_upd (d := []) (h6 p rfl) (fun c => by simp), h1 _ rfl]; simp

theorem keptIn_append (a b : List Ev) : keptIn (a ++ b) = keptIn a ++ keptIn b := List.filterMap_append
theorem calledIn_append (a b : List Ev) : calledIn (a ++ b) = calledIn a ++ calledIn b := List.filterMap_append

theorem kept_cleaned (l : List Nat) : keptIn (l.map .cleaned) = [] ∧ calledIn (l.map .cleaned) = [] := by
  constructor <;> simp [keptIn, calledIn]
theorem kept_unlocked (l : List Nat) : keptIn (l.map .unlocked) = [] ∧ calledIn (l.map .unlocked) = [] := by
  constructor <;> simp [keptIn, calledIn]
theorem kept_key (l : List Nat) : keptIn (l.map .key) = [] ∧ calledIn (l.map .key) = [] := by
  constructor <;> simp [keptIn, calledIn]
theorem kept_called (l : List Nat) : keptIn (l.map .called) = [] ∧ calledIn (l.map .called) = l := by
  induction l with
  | nil => exact ⟨rfl, rfl⟩
  | cons a l ih =>
    simp only [keptIn, calledIn, List.map_cons, List.filterMap_cons] at ih ⊢
    exact ⟨ih.1, by rw [ih.2]⟩

/-- The function objects held by contexts exist (the mutexes: are locked). -/
structure Held (s : St) : Prop where
  functors : ∀ x, s.functors.count x = (load (·.atExit) s).count x
  locked : ∀ x, s.locked.count x = (load (·.notify) s).count x

theorem load_le {g : Ctx → List Nat} {s : St} {t : Nat} {c : Ctx} (hc : ctxOf s t = some c) (x : Nat) :
    (g c).count x ≤ (load g s).count x := by
  have := count_flatMap_set (fun o : Option Ctx => (o.map g).getD []) x (slots_of_ctxOf hc) none
  simp only [load, List.count_append]
  simp at this
  omega

theorem call_balance {s : St} {op : Op} {f : Fails} (ha : allowed s op = true) (hH : Held s) :
    Balance s (call s op f).2.1 (call s op f).2.2 (call s op f).1 := by
  cases op with
  | reset t k v =>
    have ht := lt_of_allowed ha (t := t) rfl
    simp only [call, reset]
    split
    · exact balance_of rfl rfl rfl rfl rfl (fun _ => rfl) fun _ => rfl
    · obtain ⟨h1, h2, h3, h4, h5⟩ := set_balance (s := s) (k := k) (v := v) (f := f) ht
      generalize set s t k v f = w at *
      obtain ⟨s1, r⟩ := w
      cases r
      · exact balance_of (kept_cleaned _).1 (kept_cleaned _).2 h1 h2 h3 h4 h5
      · exact balance_of rfl rfl h1 h2 h3 h4 h5
      · exact balance_of rfl rfl h1 h2 h3 h4 h5
  | release t k =>
    have ht := lt_of_allowed ha (t := t) rfl
    simp only [call, release]
    split
    · exact balance_of rfl rfl rfl rfl rfl (fun _ => rfl) fun _ => rfl
    · obtain ⟨h1, h2, h3, h4, h5⟩ := set_balance (s := s) (k := k) (v := none) (f := f) ht
      generalize set s t k none f = w at *
      obtain ⟨s1, r⟩ := w
      cases r
      all_goals exact balance_of rfl rfl h1 h2 h3 h4 h5
  | atThreadExit t =>
    have ht := lt_of_allowed ha (t := t) rfl
    simp only [call, atThreadExit]
    by_cases hf : f.functor = true
    · simp only [hf, if_true]
      exact balance_of rfl rfl rfl rfl rfl (fun _ => rfl) fun _ => rfl
    · simp only [hf]
      generalize hw : withCtx _ t f = w
      obtain ⟨s1, o⟩ := w
      obtain ⟨h1, h2, h3, h4, _, h6⟩ := withCtx_load (by exact ht) hw
      simp only at h2 h3 h4
      have bad : Balance s .threw [] { s1 with functors := s1.functors.erase s.next } := by
        refine ⟨.inl ⟨rfl, by simp only; omega⟩, fun x => ?_, fun _ x => ?_, fun _ x => ?_⟩
        · simp [h2, keptIn, calledIn]
        · exact congrArg (· + 0) (h1 (·.atExit) rfl x)
        · have := h1 (·.notify) rfl x
          simp only [h3]
          exact congrArg (· + _) this
      cases o with
      | none => exact bad
      | some p =>
        simp only
        by_cases hg : f.grow = true
        · simp only [hg]
          exact bad
        · simp only [hg]
          obtain ⟨e1, e2, e3⟩ := upd_rest s1 t p fun c => { c with atExit := c.atExit ++ [s.next] }
          refine ⟨.inr ⟨rfl, e3.trans h4⟩, fun x => ?_, fun _ x => ?_, fun _ x => ?_⟩
          · simp [e1, h2, keptIn, calledIn, List.count_cons]
          · have := load_upd (g := (·.atExit)) (h := fun c => { c with atExit := c.atExit ++ [s.next] }) (d := [s.next]) (h6 p rfl)
              (fun c => rfl) x
            have e := h1 (·.atExit) rfl x
            simp only [load] at this e
            simp [keptIn, calledIn, load] at *
            omega
          · have := load_upd (g := (·.notify)) (h := fun c => { c with atExit := c.atExit ++ [s.next] }) (d := []) (h6 p rfl)
              (fun c => by simp) x
            have e := h1 (·.notify) rfl x
            simp [load] at *
            rw [e2, h3]
            omega
  | notifyAtExit t m =>
    have ht := lt_of_allowed ha (t := t) rfl
    simp only [call, notifyAtExit]
    generalize hw : withCtx _ t f = w
    obtain ⟨s1, o⟩ := w
    obtain ⟨h1, h2, h3, h4, _, h6⟩ := withCtx_load (by exact ht) hw
    simp only at h2 h3 h4
    have bad : Balance s .threw [] { s1 with locked := s1.locked.erase m } := by
      refine balance_of rfl rfl h4 h2 ?_ (h1 (·.atExit) rfl) (h1 (·.notify) rfl)
      simp [h3]
    cases o with
    | none => exact bad
    | some p =>
      simp only
      by_cases hg : f.grow = true
      · simp only [hg]
        exact bad
      · simp only [hg]
        obtain ⟨e1, e2, e3⟩ := upd_rest s1 t p fun c => { c with notify := c.notify ++ [m] }
        refine ⟨.inl ⟨rfl, by simp only [Bool.false_eq_true, if_false]; omega⟩, fun x => ?_, fun _ x => ?_, fun _ x => ?_⟩
        · simp [e1, h2, keptIn, calledIn]
        · have := load_upd (g := (·.atExit)) (h := fun c => { c with notify := c.notify ++ [m] }) (d := []) (h6 p rfl)
            (fun c => by simp) x
          have e := h1 (·.atExit) rfl x
          simp [keptIn, calledIn, load] at *
          omega
        · have := load_upd (g := (·.notify)) (h := fun c => { c with notify := c.notify ++ [m] }) (d := [m]) (h6 p rfl)
            (fun c => rfl) x
          have e := h1 (·.notify) rfl x
          simp only [Bool.false_eq_true, if_false]
          rw [e2, h3]
          simp [load, List.count_cons] at *
          omega
  | newKey c =>
    simp only [call, newKey]
    split
    · exact balance_of rfl rfl rfl rfl rfl (fun _ => rfl) fun _ => rfl
    · split
      · exact balance_of (kept_key _).1 (kept_key _).2 rfl rfl rfl (fun _ => rfl) fun _ => rfl
      · split
        · exact balance_of rfl rfl rfl rfl rfl (fun _ => rfl) fun _ => rfl
        · exact balance_of (kept_key _).1 (kept_key _).2 rfl rfl rfl (fun _ => rfl) fun _ => rfl
  | deleteKey k =>
    simp only [call, deleteKey]
    split
    · exact balance_of rfl rfl rfl rfl rfl (fun _ => rfl) fun _ => rfl
    · refine balance_of (kept_cleaned _).1 (kept_cleaned _).2 rfl rfl rfl (fun x => ?_) fun x => ?_
      · exact congrArg (List.count x) (load_map (g := (·.atExit)) (h := Ctx.clear k) (fun c => by unfold Ctx.clear; split <;> rfl) s)
      · exact congrArg (List.count x) (load_map (g := (·.notify)) (h := Ctx.clear k) (fun c => by unfold Ctx.clear; split <;> rfl) s)
  | exit t =>
    simp only [call]
    unfold threadExit
    split
    · next c hc =>
      have hcc : ctxOf s t = some c := by simp [ctxOf, hc]
      simp only
      have hk : keptIn (c.atExit.reverse.map Ev.called ++
          (c.storage.zipIdx.filterMap (fun (v, k) => if s.table[k]? = some true then v else none)).map .cleaned ++
          c.notify.map .unlocked) = [] := by
        rw [keptIn_append, keptIn_append, (kept_called _).1, (kept_cleaned _).1, (kept_unlocked _).1]; rfl
      have hc' : calledIn (c.atExit.reverse.map Ev.called ++
          (c.storage.zipIdx.filterMap (fun (v, k) => if s.table[k]? = some true then v else none)).map .cleaned ++
          c.notify.map .unlocked) = c.atExit.reverse := by
        rw [calledIn_append, calledIn_append, (kept_called _).2, (kept_cleaned _).2, (kept_unlocked _).2]; simp
      refine ⟨.inl ⟨hk, by split <;> exact Nat.le_refl _⟩, fun x => ?_, fun hr x => ?_, fun hr x => ?_⟩
      · rw [hk, hc']
        have := count_foldl_erase x c.atExit.reverse s.functors
        have e := load_le (g := (·.atExit)) hcc x
        rw [← hH.functors x] at e
        rw [List.count_reverse] at this ⊢
        split <;> simp only [List.count_nil] <;> omega
      all_goals
        have hl : ¬ f.lock = true := fun h => hr (by simp [h])
        simp only [hl]
      · rw [hk, hc', List.count_reverse]
        have := count_flatMap_set (fun o : Option Ctx => (o.map (·.atExit)).getD []) x (slots_of_ctxOf hcc) none
        simp [load] at *
        omega
      · have := count_flatMap_set (fun o : Option Ctx => (o.map (·.notify)).getD []) x (slots_of_ctxOf hcc) none
        have e1 := count_foldl_erase x c.notify s.locked
        have e := load_le (g := (·.notify)) hcc x
        rw [← hH.locked x] at e
        simp [load] at *
        omega
    · exact balance_of rfl rfl rfl rfl rfl (fun _ => rfl) fun _ => rfl

/-! ### Values, whatever fails -/

theorem withCtx_value {s s1 : St} {t : Nat} {f : Fails} {o : Option Place} (ht : t < s.slots.length) (h : withCtx s t f = (s1, o)) :
    (∀ u j, valueOf s1 u j = valueOf s u j) ∧ s1.table = s.table ∧ s1.freed = s.freed := by
  rcases withCtx_cases s t f with ⟨c, hc, he⟩ | ⟨hc, _, he⟩ | ⟨hc, _, he⟩ | ⟨hc, _, he⟩ | ⟨hc, he⟩
  all_goals
    rw [he] at h
    cases h
  · exact ⟨fun _ _ => rfl, rfl, rfl⟩
  · exact ⟨fun _ _ => rfl, rfl, rfl⟩
  · exact ⟨fun _ _ => rfl, rfl, rfl⟩
  · exact ⟨fun _ _ => rfl, rfl, rfl⟩
  · exact ⟨(same_fresh ht hc).values, rfl, rfl⟩

theorem lt_of_ctxOf {s : St} {t : Nat} {c : Ctx} (h : ctxOf s t = some c) : t < s.slots.length := by
  have := slots_of_ctxOf h
  exact Decidable.byContradiction fun hn => by rw [List.getElem?_eq_none (by omega)] at this; cases this

theorem upd_value {s : St} {t : Nat} {p : Place} {h : Ctx → Ctx} {u j : Nat} (hv : Valid s t p)
    (hh : ∀ c : Ctx, ((h c).storage[j]?).join = (c.storage[j]?).join) : valueOf (upd s t p h) u j = valueOf s u j := by
  cases p with
  | slot =>
    obtain ⟨c, hc⟩ := hv
    rw [upd_slot hc]
    unfold valueOf
    rw [ctxOf_upd (lt_of_ctxOf hc)]
    by_cases hu : u = t
    · subst hu; simp [hc, hh]
    · simp [hu]
  | nowhere => rfl

theorem upd_keys (s : St) (t : Nat) (p : Place) (h : Ctx → Ctx) : (upd s t p h).table = s.table ∧ (upd s t p h).freed = s.freed := by
  unfold upd
  cases p
  · simp only
    split <;> exact ⟨rfl, rfl⟩
  · exact ⟨rfl, rfl⟩

theorem set_other {s : St} {t k : Nat} {v : Option Nat} {f : Fails} (ht : t < s.slots.length) :
    (∀ u j, j ≠ k → valueOf (set s t k v f).1 u j = valueOf s u j) ∧ (set s t k v f).1.table = s.table ∧
    (set s t k v f).1.freed = s.freed := by
  unfold set
  generalize hw : withCtx s t f = w
  obtain ⟨s1, o⟩ := w
  obtain ⟨h1, h2, h3⟩ := withCtx_value ht hw
  obtain ⟨_, _, _, _, _, h6⟩ := withCtx_load ht hw
  cases o with
  | none => exact ⟨fun u j _ => h1 u j, h2, h3⟩
  | some p =>
    simp only
    split
    · exact ⟨fun u j _ => h1 u j, h2, h3⟩
    · obtain ⟨e1, e2⟩ := upd_keys s1 t p fun c => { c with storage := put c.storage k v }
      refine ⟨fun u j hj => ?_, e1.trans h2, e2.trans h3⟩
      rw [upd_value (h6 p rfl) (fun c => by simp [put_get, hj]), h1]

/-- Which keys exist, and that the others have no values. -/
structure Keys (s : St) : Prop where
  nodup : s.freed.Nodup
  bound : ∀ k ∈ s.freed, k < s.table.length
  none : ∀ u k, (k ∈ s.freed ∨ s.table.length ≤ k) → valueOf s u k = none

theorem valueOf_clear {s s' : St} {k u j : Nat} (hs : s'.slots = s.slots.map (Option.map (Ctx.clear k))) :
    valueOf s' u j = if j = k then none else valueOf s u j := by
  have e : ctxOf s' u = (ctxOf s u).map (Ctx.clear k) := by
    unfold ctxOf
    rw [hs, List.getElem?_map]
    cases s.slots[u]? <;> rfl
  unfold valueOf
  rw [e]
  cases ctxOf s u with
  | none => simp
  | some c =>
    simp only [Option.map_some, Option.bind_some]
    unfold Ctx.clear Ctx.get
    by_cases hj : j = k
    · subst hj
      split
      · rw [List.getElem?_set_self']
        cases c.storage[j]? <;> simp
      · next h => simpa using h
    · rw [if_neg hj]
      split
      · rw [List.getElem?_set_ne (Ne.symm hj)]
      · rfl

theorem call_keys {s : St} {op : Op} {f : Fails} (ha : allowed s op = true) (hK : Keys s) : Keys (call s op f).1 := by
  have keep : ∀ {s' : St} (k : Nat), ¬ (k ∈ s.freed ∨ s.table.length ≤ k) → (∀ u j, j ≠ k → valueOf s' u j = valueOf s u j) →
      s'.table = s.table → s'.freed = s.freed → Keys s' := by
    intro s' k hk h1 h2 h3
    refine ⟨h3 ▸ hK.nodup, fun j hj => ?_, fun u j hj => ?_⟩
    · rw [h2]; exact hK.bound j (h3 ▸ hj)
    · rw [h2, h3] at hj
      rw [h1 u j (fun h => hk (h ▸ hj))]
      exact hK.none u j hj
  have keep' : ∀ {s' : St}, (∀ u j, valueOf s' u j = valueOf s u j) → s'.table = s.table → s'.freed = s.freed → Keys s' := by
    intro s' h1 h2 h3
    refine ⟨h3 ▸ hK.nodup, fun j hj => ?_, fun u j hj => ?_⟩
    · rw [h2]; exact hK.bound j (h3 ▸ hj)
    · rw [h2, h3] at hj
      rw [h1 u j]
      exact hK.none u j hj
  cases op with
  | reset t k v =>
    have ht := lt_of_allowed ha (t := t) rfl
    have hk : ¬ (k ∈ s.freed ∨ s.table.length ≤ k) := by
      simp [allowed] at ha
      rintro (h | h)
      · exact ha.2 h
      · omega
    simp only [call, reset]
    split
    · exact hK
    · obtain ⟨h1, h2, h3⟩ := set_other (s := s) (k := k) (v := v) (f := f) ht
      generalize set s t k v f = w at *
      obtain ⟨s1, r⟩ := w
      cases r <;> exact keep k hk h1 h2 h3
  | release t k =>
    have ht := lt_of_allowed ha (t := t) rfl
    have hk : ¬ (k ∈ s.freed ∨ s.table.length ≤ k) := by
      simp [allowed] at ha
      rintro (h | h)
      · exact ha.2 h
      · omega
    simp only [call, release]
    split
    · exact hK
    · obtain ⟨h1, h2, h3⟩ := set_other (s := s) (k := k) (v := none) (f := f) ht
      generalize set s t k none f = w at *
      obtain ⟨s1, r⟩ := w
      cases r <;> exact keep k hk h1 h2 h3
  | atThreadExit t =>
    have ht := lt_of_allowed ha (t := t) rfl
    simp only [call, atThreadExit]
    by_cases hf : f.functor = true
    · simp only [hf, if_true]; exact hK
    · simp only [hf]
      generalize hw : withCtx _ t f = w
      obtain ⟨s1, o⟩ := w
      obtain ⟨h1, h2, h3⟩ := withCtx_value (by exact ht) hw
      obtain ⟨_, _, _, _, _, h6⟩ := withCtx_load (by exact ht) hw
      cases o with
      | none => exact keep' h1 h2 h3
      | some p =>
        simp only
        by_cases hg : f.grow = true
        · simp only [hg]; exact keep' h1 h2 h3
        · simp only [hg]
          obtain ⟨e1, e2⟩ := upd_keys s1 t p fun c => { c with atExit := c.atExit ++ [s.next] }
          exact keep' (fun u j => (upd_value (h := fun c => { c with atExit := c.atExit ++ [s.next] }) (h6 p rfl) (fun c => rfl)).trans (h1 u j)) (e1.trans h2) (e2.trans h3)
  | notifyAtExit t m =>
    have ht := lt_of_allowed ha (t := t) rfl
    simp only [call, notifyAtExit]
    generalize hw : withCtx _ t f = w
    obtain ⟨s1, o⟩ := w
    obtain ⟨h1, h2, h3⟩ := withCtx_value (by exact ht) hw
    obtain ⟨_, _, _, _, _, h6⟩ := withCtx_load (by exact ht) hw
    cases o with
    | none => exact keep' h1 h2 h3
    | some p =>
      simp only
      by_cases hg : f.grow = true
      · simp only [hg]; exact keep' h1 h2 h3
      · simp only [hg]
        obtain ⟨e1, e2⟩ := upd_keys s1 t p fun c => { c with notify := c.notify ++ [m] }
        exact keep' (fun u j => (upd_value (h := fun c => { c with notify := c.notify ++ [m] }) (h6 p rfl) (fun c => rfl)).trans (h1 u j)) (e1.trans h2) (e2.trans h3)
  | newKey c =>
    simp only [call, newKey]
    split
    · exact hK
    · split
      · next k ks hk =>
        have hn := hK.nodup
        have hb := hK.bound
        rw [hk] at hn hb
        refine ⟨(List.nodup_cons.mp hn).2, fun j hj => ?_, fun u j hj => hK.none u j ?_⟩
        · simpa using hb j (List.mem_cons_of_mem _ hj)
        · rw [hk]
          rcases hj with hj | hj
          · exact .inl (List.mem_cons_of_mem _ hj)
          · exact .inr (by simpa using hj)
      · next hk =>
        split
        · exact hK
        · refine ⟨hK.nodup, fun j hj => ?_, fun u j hj => hK.none u j ?_⟩
          · have := hK.bound j hj
            simp only [List.length_append]
            omega
          · rcases hj with hj | hj
            · exact .inl hj
            · simp only [List.length_append] at hj
              exact .inr (by omega)
  | deleteKey k =>
    simp only [call, deleteKey]
    split
    · exact hK
    · simp [allowed] at ha
      refine ⟨List.nodup_cons.mpr ⟨ha.2, hK.nodup⟩, fun j hj => ?_, fun u j hj => ?_⟩
      · simp only [List.length_set]
        rcases List.mem_cons.mp hj with rfl | hj
        · exact ha.1
        · exact hK.bound j hj
      · rw [valueOf_clear (s := s) (k := k) rfl]
        split
        · rfl
        · next hjk =>
          refine hK.none u j ?_
          rcases hj with hj | hj
          · exact .inl ((List.mem_cons.mp hj).resolve_left hjk)
          · exact .inr (by simpa using hj)
  | exit t =>
    have ht : t < s.slots.length := by simpa [allowed] using ha
    simp only [call]
    unfold threadExit
    split
    · simp only
      split
      · exact keep' (fun _ _ => rfl) rfl rfl
      · refine ⟨hK.nodup, hK.bound, fun u j hj => ?_⟩
        have := hK.none u j hj
        have e := ctxOf_set ht none u
        unfold valueOf at this ⊢
        unfold ctxOf at this e ⊢
        simp only
        rw [e]
        split
        · rfl
        · exact this
    · exact hK

/-! ### Executions -/

/-- The invariant. -/
structure Inv (tr : List Ev) (s : St) : Prop where
  bound : ∀ x ∈ keptIn tr, x < s.next
  nodup : (keptIn tr).Nodup
  count : ∀ x, (keptIn tr).count x = s.functors.count x + (calledIn tr).count x
  held : s.dead = false → Held s
  keys : Keys s

theorem step_eq {s s' : St} {op : Op} {f : Fails} {es : List Ev} (h : step s (op, f) = some (s', es)) :
    s.dead = false ∧ allowed s op = true ∧ s' = { (call s op f).1 with dead := (call s op f).2.1 = .aborted } ∧
    es = (call s op f).2.2 ++ [.ended op (call s op f).2.1] := by
  unfold step at h
  simp only at h
  split at h
  · cases h
  · next hd =>
    simp at hd
    cases h
    exact ⟨hd.1, hd.2, rfl, rfl⟩

theorem count_load_init (g : Ctx → List Nat) (n x : Nat) : (load g (init n)).count x = 0 := by
  refine List.count_eq_zero.mpr fun h => ?_
  simp only [load, init, List.flatMap_nil, List.append_nil, List.mem_flatMap] at h
  obtain ⟨o, ho, hx⟩ := h
  rw [List.eq_of_mem_replicate ho] at hx
  cases hx

theorem inv_exec {n : Nat} {tr : List Ev} {s : St} (h : Exec step (init n) tr s) : Inv tr s := by
  refine h.invariant Inv ?_ ?_
  · refine ⟨by simp [keptIn], by simp [keptIn], fun x => by simp [keptIn, calledIn, init], fun _ => ⟨fun x => ?_, fun x => ?_⟩,
      by simp [init], by simp [init], fun u k _ => ?_⟩
    · exact (count_load_init _ n x).symm
    · exact (count_load_init _ n x).symm
    · unfold valueOf ctxOf init
      simp only [List.getElem?_replicate]
      split <;> rfl
  · rintro tr s ⟨op, f⟩ s' es hI hs
    obtain ⟨hd, ha, rfl, rfl⟩ := step_eq hs
    have hB := call_balance (f := f) ha (hI.held hd)
    have hK := call_keys (f := f) ha hI.keys
    generalize call s op f = w at *
    obtain ⟨s', r, es⟩ := w
    simp only at hB hK ⊢
    have ek : keptIn (tr ++ (es ++ [Ev.ended op r])) = keptIn tr ++ keptIn es := by simp [keptIn_append]; rfl
    have ec : calledIn (tr ++ (es ++ [Ev.ended op r])) = calledIn tr ++ calledIn es := by simp [calledIn_append]; rfl
    refine ⟨?_, ?_, ?_, ?_, ⟨hK.nodup, hK.bound, hK.none⟩⟩
    · rw [ek]
      intro x hx
      simp only
      rcases List.mem_append.mp hx with hx | hx
      · have := hI.bound x hx
        rcases hB.made with ⟨_, h⟩ | ⟨_, h⟩ <;> omega
      · rcases hB.made with ⟨h, _⟩ | ⟨h, h'⟩
        · rw [h] at hx; cases hx
        · rw [h] at hx; have := List.mem_singleton.mp hx; omega
    · rw [ek]
      rcases hB.made with ⟨h, _⟩ | ⟨h, _⟩
      · rw [h, List.append_nil]; exact hI.nodup
      · rw [h, List.nodup_append]
        refine ⟨hI.nodup, by simp, fun a ha b hb => ?_⟩
        have := hI.bound a ha
        have := List.mem_singleton.mp hb
        omega
    · intro x
      rw [ek, ec, List.count_append, List.count_append]
      have := hI.count x
      have := hB.functors x
      simp only
      omega
    · intro hr
      simp only [decide_eq_false_iff_not] at hr
      refine ⟨fun x => ?_, fun x => ?_⟩
      · have h1 := hB.functors x
        have h2 := hB.held hr x
        have h3 := (hI.held hd).functors x
        simp only [load] at *
        omega
      · have h2 := hB.locked hr x
        have h3 := (hI.held hd).locked x
        simp only [load] at *
        omega

theorem filterMap_eq_range {α β : Type} (g : α → Option β) : ∀ l : List α,
    l.filterMap g = (List.range l.length).filterMap fun i => (l[i]?).bind g
  | [] => rfl
  | a :: l => by
    rw [List.length_cons, List.range_succ_eq_map, List.filterMap_cons, List.filterMap_cons, List.filterMap_map, filterMap_eq_range g l]
    simp only [List.getElem?_cons_zero, Option.bind_some]
    congr 1

theorem filterMap_range_le {β : Type} (g : Nat → Option β) {m n : Nat} (hmn : m ≤ n) (h : ∀ k, m ≤ k → g k = none) :
    (List.range n).filterMap g = (List.range m).filterMap g := by
  obtain ⟨d, rfl⟩ := Nat.exists_eq_add_of_le hmn
  rw [List.range_add, List.filterMap_append, List.filterMap_map]
  rw [show (List.range d).filterMap (g ∘ fun x => m + x) = [] from List.filterMap_eq_nil_iff.mpr fun x _ => h _ (Nat.le_add_right m x)]
  exact List.append_nil _

/-- The values cleaned at the exit of a thread. -/
theorem cleaned_eq (table : List Bool) (l : List (Option Nat)) :
    l.zipIdx.filterMap (fun (v, k) => if table[k]? = some true then v else none) =
    (List.range table.length).filterMap fun k => if table[k]? = some true then (l[k]?).join else none := by
  rw [filterMap_eq_range, List.length_zipIdx]
  have e : (fun i : Nat => (l.zipIdx[i]?).bind fun (x : Option Nat × Nat) => if table[x.2]? = some true then x.1 else none) =
      fun k => if table[k]? = some true then (l[k]?).join else none := by
    funext k
    rw [List.getElem?_zipIdx]
    cases l[k]? <;> simp
  rw [e]
  rcases Nat.le_total l.length table.length with h | h
  · exact (filterMap_range_le _ h fun k hk => by rw [List.getElem?_eq_none hk]; simp).symm
  · exact filterMap_range_le _ h fun k hk => by rw [List.getElem?_eq_none hk]; simp

theorem fresh_next {tr : List Ev} {s : St} (hI : Inv tr s) : s.next ∉ s.functors := by
  intro h
  have h1 := List.count_pos_iff.mpr h
  have h2 := hI.count s.next
  have := hI.bound s.next (List.count_pos_iff.mp (by omega))
  omega

/-- A successful call has its effect. -/
theorem call_done {tr : List Ev} {s : St} {op : Op} {f : Fails} (hI : Inv tr s) (ha : allowed s op = true) (hS : Sound s op f)
    (h : (call s op f).2.1 = .done) : Effect s op (call s op f).2.2 (call s op f).1 := by
  cases op with
  | reset t k v =>
    have ht := lt_of_allowed ha (t := t) rfl
    simp only [call, reset, get_eq] at h ⊢
    unfold Effect
    simp only
    split
    · next he =>
      refine ⟨fun u j => ?_, fun _ => ⟨rfl, rfl⟩, by simp [he]⟩
      split
      · next hu => rw [hu.1, hu.2, he]
      · rfl
    · next he =>
      rcases set_sound (k := k) (v := v) ht (hS t rfl) with ⟨s1, e, hs⟩ | ⟨s1, e, h1, h2⟩
      · simp [e, he] at h
      · simp only [e]
        refine ⟨h1, h2, ?_⟩
        by_cases hb : s.table[k]? = some true
        · simp [he, hb]; cases valueOf s t k <;> rfl
        · simp [hb]
  | release t k =>
    have ht := lt_of_allowed ha (t := t) rfl
    simp only [call, release, get_eq] at h ⊢
    unfold Effect
    simp only
    split
    · next he =>
      refine ⟨fun u j => ?_, fun _ => ⟨rfl, rfl⟩, by simp [he]⟩
      split
      · next hu => rw [hu.1, hu.2, he]
      · rfl
    · next he =>
      rcases set_sound (k := k) (v := none) ht (hS t rfl) with ⟨s1, e, hs⟩ | ⟨s1, e, h1, h2⟩
      · simp [e, he] at h
      · simp only [e]
        exact ⟨h1, h2, by simp⟩
  | atThreadExit t =>
    have ht := lt_of_allowed ha (t := t) rfl
    simp only [call, atThreadExit] at h ⊢
    by_cases hf : f.functor = true
    · simp [hf] at h
    · simp only [hf] at h ⊢
      rcases withCtx_sound (s := { s with functors := s.next :: s.functors, next := s.next + 1 }) (f := f) ht (hS t rfl) with
        he | ⟨s1, c, he, hs, _, hc, ht1⟩
      · simp [he] at h
      · simp only [he] at h ⊢
        by_cases hg : f.grow = true
        · simp [hg] at h
        · simp only [hg]
          unfold Effect
          simp only [Bool.false_eq_true, if_false]
          have hv := hs.values
          have hb := hs.callbacks
          have hn := hs.notifs
          have hfu := hs.functors
          rw [upd_slot hc]
          refine ⟨fun u j => ?_, fun u => ?_, s.next, fresh_next hI, by simp, hfu, fun u => ?_⟩
          · rw [show valueOf s u j = _ from (hv u j).symm]
            unfold valueOf
            rw [ctxOf_upd ht1]
            by_cases hu : u = t
            · subst hu; simp [hc]
            · simp [hu]
          · rw [show notifsOf s u = _ from (hn u).symm]
            unfold notifsOf
            rw [ctxOf_upd ht1]
            by_cases hu : u = t
            · subst hu; simp [hc]
            · simp [hu]
          · rw [show callbacksOf s u = _ from (hb u).symm]
            unfold callbacksOf
            rw [ctxOf_upd ht1]
            by_cases hu : u = t
            · subst hu; simp [hc]
            · simp [hu]
  | notifyAtExit t m =>
    have ht := lt_of_allowed ha (t := t) rfl
    simp only [call, notifyAtExit] at h ⊢
    rcases withCtx_sound (s := { s with locked := m :: s.locked }) (f := f) ht (hS t rfl) with he | ⟨s1, c, he, hs, _, hc, ht1⟩
    · simp [he] at h
    · simp only [he] at h ⊢
      by_cases hg : f.grow = true
      · simp [hg] at h
      · simp only [hg]
        unfold Effect
        simp only [Bool.false_eq_true, if_false]
        have hv := hs.values
        have hb := hs.callbacks
        have hn := hs.notifs
        have hl := hs.locked
        rw [upd_slot hc]
        refine ⟨fun u j => ?_, fun u => ?_, trivial, hl, fun u => ?_⟩
        · rw [show valueOf s u j = _ from (hv u j).symm]
          unfold valueOf
          rw [ctxOf_upd ht1]
          by_cases hu : u = t
          · subst hu; simp [hc]
          · simp [hu]
        · rw [show callbacksOf s u = _ from (hb u).symm]
          unfold callbacksOf
          rw [ctxOf_upd ht1]
          by_cases hu : u = t
          · subst hu; simp [hc]
          · simp [hu]
        · rw [show notifsOf s u = _ from (hn u).symm]
          unfold notifsOf
          rw [ctxOf_upd ht1]
          by_cases hu : u = t
          · subst hu; simp [hc]
          · simp [hu]
  | newKey c =>
    simp only [call, newKey] at h ⊢
    unfold Effect
    simp only
    split
    · next hl => simp [hl] at h
    · next hl =>
      rw [if_neg hl] at h
      split
      · next k ks hk =>
        have hn := hI.keys.nodup
        have hb := hI.keys.bound
        rw [hk] at hn hb
        have hkl := hb k List.mem_cons_self
        refine ⟨fun _ _ => rfl, fun _ => ⟨rfl, rfl⟩, k, rfl, .inl (by rw [hk]; exact List.mem_cons_self),
          fun u => hI.keys.none u k (.inl (by rw [hk]; exact List.mem_cons_self)), (List.nodup_cons.mp hn).1, by simp [hkl],
          fun j hj => ⟨by simp [List.getElem?_set_ne (Ne.symm hj)], by simp [hk, hj]⟩⟩
      · next hk =>
        simp only [hk] at h
        split
        · next hg => simp [hg] at h
        · refine ⟨fun _ _ => rfl, fun _ => ⟨rfl, rfl⟩, s.table.length, rfl, .inr (Nat.le_refl _),
            fun u => hI.keys.none u _ (.inr (Nat.le_refl _)), by simp [hk], by simp, fun j hj => ⟨?_, by simp⟩⟩
          simp only
          rw [List.getElem?_append]
          split
          · rfl
          · rw [List.getElem?_eq_none (l := s.table) (by omega), List.getElem?_eq_none (by simp; omega)]
  | deleteKey k =>
    simp only [call, deleteKey] at h ⊢
    unfold Effect
    simp only
    split
    · next hl => simp [hl] at h
    · exact ⟨fun u j => valueOf_clear rfl, fun u => by
        have e : ctxOf { s with slots := s.slots.map (Option.map (Ctx.clear k)), lost := s.lost.map (Ctx.clear k),
                                freed := k :: s.freed, table := s.table.set k false } u = (ctxOf s u).map (Ctx.clear k) := by
          unfold ctxOf
          simp only [List.getElem?_map]
          cases s.slots[u]? <;> rfl
        unfold callbacksOf notifsOf
        rw [e]
        cases ctxOf s u with
        | none => exact ⟨rfl, rfl⟩
        | some c => simp only [Option.map_some, Option.getD_some]; unfold Ctx.clear; split <;> exact ⟨rfl, rfl⟩,
        List.mem_cons_self, fun c hc => by
          obtain ⟨d, -, rfl⟩ := List.mem_map.mp hc
          show (Ctx.clear k d).get k = none
          unfold Ctx.clear
          split
          · unfold Ctx.get
            simp only [List.getElem?_set, if_pos trivial]
            split <;> rfl
          · next hn => simpa using hn, by
          split
          · rw [filterMap_eq_range]
            refine congrArg (List.map Ev.cleaned) (congrArg (fun g => List.filterMap g (List.range s.slots.length) ++ s.lost.filterMap (·.get k)) ?_)
            funext u
            unfold valueOf ctxOf Ctx.get
            cases s.slots[u]? with
            | none => rfl
            | some o => cases o <;> rfl
          · rfl,
        fun j hj => ⟨by simp [List.getElem?_set_ne (Ne.symm hj)], by simp [hj]⟩⟩
  | exit t =>
    have ht : t < s.slots.length := by simpa [allowed] using ha
    simp only [call] at h ⊢
    unfold Effect
    simp only
    unfold threadExit at h ⊢
    split
    · next c hc =>
      have hcc : ctxOf s t = some c := by simp [ctxOf, hc]
      simp only [hc] at h ⊢
      have hl : ¬ f.lock = true := fun hl => by simp [hl] at h
      simp only [hl]
      refine ⟨fun u => ctxOf_set ht none u, rfl, rfl, rfl, ?_⟩
      rw [cleaned_eq]
      simp only [callbacksOf, notifsOf, valueOf, hcc, Option.map_some, Option.getD_some, Option.bind_some]
    · next hc =>
      have hcc : ctxOf s t = none := by
        unfold ctxOf
        cases hh : s.slots[t]? with
        | none => rfl
        | some o =>
          cases o with
          | none => rfl
          | some c => exact absurd hh (hc c)
      refine ⟨fun u => ?_, rfl, rfl, rfl, by simp [callbacksOf, notifsOf, valueOf, hcc]⟩
      split
      · next hu => rw [hu, hcc]
      · rfl

/-- Contexts hold nothing if there are none. -/
theorem load_nil {s : St} (hc : ∀ t, ctxOf s t = none) (hl : s.lost = []) (g : Ctx → List Nat) (x : Nat) : (load g s).count x = 0 := by
  refine List.count_eq_zero.mpr fun h => ?_
  simp only [load, hl, List.flatMap_nil, List.append_nil, List.mem_flatMap] at h
  obtain ⟨o, ho, hx⟩ := h
  obtain ⟨t, ht, e⟩ := List.getElem_of_mem ho
  have := hc t
  rw [ctxOf, List.getElem?_eq_getElem ht, e] at this
  cases o with
  | none => cases hx
  | some c => cases this

end Verif.TssAlloc
