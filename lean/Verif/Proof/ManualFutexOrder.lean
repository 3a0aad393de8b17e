import Verif.Proof.ManualEventFutex
import Verif.Spec.ManualFutexOrder

/-! What threads know of the word, in the futex `manual_reset_event`. -/

namespace Verif.ManualFutexOrder

open ManualFutex (PC Th Kind isSet takeOrder retEv waitOne postBit waitMask relOf workOf successOf VStep VInv flag)

/-! ## Traces -/

theorem plain_append (a b : List Ev) : plain (a ++ b) = plain a ++ plain b := List.filterMap_append

theorem plain_ev (es : List ManualFutex.Ev) : plain (es.map .ev) = es := by
  unfold plain
  rw [List.filterMap_map]
  exact List.filterMap_some

theorem plain_changed (t : Nat) (w : UInt32) (es : List ManualFutex.Ev) : plain (.changed t w :: es.map .ev) = es := plain_ev es

theorem split_append {a b tr es : List Ev} {e : Ev} (h : tr ++ es = a ++ e :: b) :
    (∃ b', tr = a ++ e :: b' ∧ b = b' ++ es) ∨ ∃ c, a = tr ++ c ∧ es = c ++ e :: b := by
  rcases List.append_eq_append_iff.mp h with ⟨c, h1, h2⟩ | ⟨c, h1, h2⟩
  · exact .inr ⟨c, h1, h2⟩
  · cases c with
    | nil =>
      simp only [List.nil_append] at h2
      exact .inr ⟨[], by simp [h1], h2.symm⟩
    | cons x c =>
      simp only [List.cons_append, List.cons.injEq] at h2
      obtain ⟨rfl, h2⟩ := h2
      exact .inl ⟨c, h1, h2⟩

theorem values_append (tr es : List Ev) : values (tr ++ es) = values tr ++ es.filterMap fun | .changed _ w => some w | _ => none := by
  unfold values
  rw [List.filterMap_append]
  rfl

theorem values_le (tr es : List Ev) : (values tr).length ≤ (values (tr ++ es)).length := by
  rw [values_append, List.length_append]; omega

theorem values_plain (tr : List Ev) (es : List ManualFutex.Ev) : values (tr ++ es.map .ev) = values tr := by
  rw [values_append]
  have : (es.map Ev.ev).filterMap (fun | .changed _ w => some w | _ => none) = [] := by
    rw [List.filterMap_eq_nil_iff]
    intro e he
    obtain ⟨e', _, rfl⟩ := List.mem_map.mp he
    rfl
  rw [this, List.append_nil]

theorem values_changed (tr : List Ev) (t : Nat) (w : UInt32) (es : List ManualFutex.Ev) : values (tr ++ Ev.changed t w :: es.map .ev) = values tr ++ [w] := by
  have : tr ++ Ev.changed t w :: es.map .ev = (tr ++ [Ev.changed t w]) ++ es.map .ev := by simp
  rw [this, values_plain, values_append]
  rfl

/-- What holds of what thread `t` has observed. -/
structure Own (tr : List Ev) (f : Nat) (t : Nat) (k : View) (p : Nat) : Prop where
  pos : p < (values tr).length
  ids : ∀ id ∈ k, id < f
  old : ∀ a u w b, tr = a ++ .changed u w :: b → ∀ id, Ev.ev (.work u id) ∈ b → id ∈ k → (values a).length ≤ p
  mine : ∀ a w b, tr = a ++ .changed t w :: b → (values a).length ≤ p

theorem Own.plain {tr : List Ev} {es : List ManualFutex.Ev} {f f' : Nat} {t : Nat} {k : View} {p : Nat} (h : Own tr f t k p) (hf : f ≤ f')
    (hes : ∀ u id, .work u id ∈ es → id ∉ k) : Own (tr ++ es.map .ev) f' t k p where
  pos := Nat.lt_of_lt_of_le h.pos (values_le _ _)
  ids id hi := Nat.lt_of_lt_of_le (h.ids id hi) hf
  old a u w b he id hw hi := by
    rcases split_append he with ⟨b', h1, rfl⟩ | ⟨c, h1, h2⟩
    · rcases List.mem_append.mp hw with hw | hw
      · exact h.old a u w b' h1 id hw hi
      · obtain ⟨e', hm, h⟩ := List.mem_map.mp hw
        cases h
        exact absurd hi (hes u id hm)
    · have : Ev.changed u w ∈ es.map Ev.ev := by rw [h2]; simp
      obtain ⟨_, _, h⟩ := List.mem_map.mp this
      cases h
  mine a w b he := by
    rcases split_append he with ⟨b', h1, rfl⟩ | ⟨c, h1, h2⟩
    · exact h.mine a w b' h1
    · have : Ev.changed t w ∈ es.map Ev.ev := by rw [h2]; simp
      obtain ⟨_, _, h⟩ := List.mem_map.mp this
      cases h

/-- Another thread changes the word. -/
theorem Own.other {tr : List Ev} {es : List ManualFutex.Ev} {f : Nat} {t u : Nat} {x : UInt32} {k : View} {p : Nat} (h : Own tr f t k p) (hu : u ≠ t)
    (hes : ∀ u id, .work u id ∉ es) : Own (tr ++ Ev.changed u x :: es.map .ev) f t k p where
  pos := Nat.lt_of_lt_of_le h.pos (values_le _ _)
  ids := h.ids
  old a u' w b he id hw hi := by
    have no : Ev.ev (.work u' id) ∉ Ev.changed u x :: es.map .ev := by
      intro hm
      rcases List.mem_cons.mp hm with h | hm
      · cases h
      · obtain ⟨e', hm, h⟩ := List.mem_map.mp hm
        cases h
        exact hes _ _ hm
    rcases split_append he with ⟨b', h1, rfl⟩ | ⟨c, h1, h2⟩
    · rcases List.mem_append.mp hw with hw | hw
      · exact h.old a u' w b' h1 id hw hi
      · exact absurd hw no
    · exact absurd (by rw [h2]; simp [hw]) no
  mine a w b he := by
    rcases split_append he with ⟨b', h1, rfl⟩ | ⟨c, h1, h2⟩
    · exact h.mine a w b' h1
    · have : Ev.changed t w ∈ Ev.changed u x :: es.map Ev.ev := by rw [h2]; simp
      rcases List.mem_cons.mp this with h | hm
      · cases h; exact absurd rfl hu
      · obtain ⟨_, _, h⟩ := List.mem_map.mp hm
        cases h

/-- The thread that has changed the word knows all changes. -/
theorem own_newest {tr : List Ev} {f : Nat} {t : Nat} {k : View} (hk : ∀ id ∈ k, id < f) : ∀ {p : Nat}, p + 1 = (values tr).length → Own tr f t k p := by
  intro p hp
  have key : ∀ a u w b, tr = a ++ .changed u w :: b → (values a).length ≤ p := by
    intro a u w b he
    have e : tr = (a ++ [.changed u w]) ++ b := by rw [he]; simp
    have h1 := values_le (a ++ [.changed u w]) b
    rw [← e, values_append] at h1
    simp only [List.length_append] at h1
    have : (List.filterMap (fun | Ev.changed _ w => some w | _ => none) [Ev.changed u w]).length = 1 := rfl
    omega
  exact ⟨by omega, hk, fun a u w b he id _ _ => key a u w b he, fun a w b he => key a t w b he⟩

/-- The last change of the word. -/
theorem last_change (tr : List Ev) : (values tr).length = 1 ∨ ∃ a u w b, tr = a ++ .changed u w :: b ∧ (values tr).length = (values a).length + 1 := by
  have key : ∀ n (tr : List Ev), tr.length = n → (values tr).length = 1 ∨ ∃ a u w b, tr = a ++ .changed u w :: b ∧ (values tr).length = (values a).length + 1 := by
    intro n
    induction n with
    | zero => intro tr h; rw [List.length_eq_zero_iff.mp h]; exact .inl rfl
    | succ n ih =>
      intro tr h
      have hne : tr ≠ [] := by intro e; rw [e] at h; cases h
      obtain ⟨l, e, rfl⟩ : ∃ l e, tr = l ++ [e] := ⟨_, _, (List.dropLast_concat_getLast hne).symm⟩
      rw [List.length_append, List.length_singleton] at h
      cases e with
      | changed u w => exact .inr ⟨l, u, w, [], rfl, by rw [values_append]; simp⟩
      | ev e =>
        have hv : values (l ++ [.ev e]) = values l := values_plain l [e]
        rw [hv]
        rcases ih l (by omega) with h | ⟨a, u, w, b, rfl, h⟩
        · exact .inl h
        · exact .inr ⟨a, u, w, b ++ [.ev e], by simp, h⟩
  exact key _ tr rfl


/-! ## The shape of steps -/

theorem isSet_add (w : UInt32) : isSet (w + waitOne) = isSet w := by
  rw [Bool.eq_iff_iff, ManualFutex.isSet_iff, ManualFutex.isSet_iff, ManualFutex.add_toNat]
  have := w.toNat_lt
  omega

theorem isSet_sub (w : UInt32) : isSet (w - waitOne) = isSet w := by
  rw [Bool.eq_iff_iff, ManualFutex.isSet_iff, ManualFutex.isSet_iff, ManualFutex.sub_toNat]
  have := w.toNat_lt
  omega

theorem isSet_and (w : UInt32) : isSet (w &&& waitMask) = false := by
  rw [ManualFutex.isSet_false_iff, ManualFutex.and_toNat]
  omega

/-- What a thread inside a wait has found: whether the event was set, and if not, the number of `set()`s at its `add`. -/
def found : PC → Option (Bool × Option Nat)
  | .sub _ => some (true, none)
  | .sleepCall _ _ b | .asleep _ b | .reload _ b => some (false, some b)
  | .timedOut => some (false, none)
  | _ => none

/-- How a thread moves without a look at the word. -/
def Slides (pc pc' : PC) : Prop :=
  found pc' = none ∨ found pc' = found pc ∨ (found pc' = some (false, none) ∧ ∃ b, found pc = some (false, some b))

/-- What an action does to the word and to what is observed. -/
inductive Shape (s : ManualFutex.St) (t : Nat) (th : Th) : ManualFutex.St → List ManualFutex.Ev → Prop
  | still (ths' : List Th) (es : List ManualFutex.Ev)
      (hv : ∀ (u : Nat) (th' : Th), ths'[u]? = some th' → ∃ th, s.ths[u]? = some th ∧ th.view = th'.view ∧ Slides th.pc th'.pc)
      (he : ∀ u id, .work u id ∉ es) (hw : writes th.pc = false) : Shape s t th { s with ths := ths' } es
  | rmw (o : Order) (new : UInt32) (pc' : PC) (n : Nat) (es : List ManualFutex.Ev) (he : ∀ u id, .work u id ∉ es) (hw : writes th.pc = true)
      (hn : s.sets ≤ n) (hnew : isSet new = true → isSet s.word.val = true ∨ s.sets < n)
      (hf : found pc' = none ∨ (isSet new = true ∧ found pc' = some (true, none)) ∨ (isSet new = false ∧ found pc' = some (false, some n))) :
      Shape s t th { s with word := (s.word.rmw o th.view new).1, ths := s.ths.set t ⟨pc', (s.word.rmw o th.view new).2⟩, sets := n } es
  | work (hi : th.pc = .idle) :
      Shape s t th { s with ths := s.ths.set t { th with view := s.fresh :: th.view }, fresh := s.fresh + 1 } [.work t s.fresh]

theorem ret_not_work (t : Nat) (k : Kind) (b : Bool) : ∀ u id, ManualFutex.Ev.work u id ∉ [retEv t k b] := by
  intro u id h; cases k <;> simp [retEv] at h

theorem slides_set {l : List Th} {t : Nat} {th : Th} (ht : l[t]? = some th) {pc : PC} (h : Slides th.pc pc) :
    ∀ (u : Nat) th', (l.set t ⟨pc, th.view⟩)[u]? = some th' → ∃ th, l[u]? = some th ∧ th.view = th'.view ∧ Slides th.pc th'.pc := by
  intro u th' hu
  rcases get_set_cases hu with ⟨rfl, rfl⟩ | ⟨hne, h3⟩
  · exact ⟨th, ht, rfl, h⟩
  · exact ⟨th', h3, rfl, .inr (.inl rfl)⟩

theorem slides_wake {l : List Th} {t : Nat} {th : Th} (ht : l[t]? = some th) :
    ∀ (u : Nat) th', ((l.set t ⟨.idle, th.view⟩).map Th.wakeUp)[u]? = some th' → ∃ th, l[u]? = some th ∧ th.view = th'.view ∧ Slides th.pc th'.pc := by
  intro u th' hu
  obtain ⟨x, hx, rfl⟩ := ManualFutex.get_wakeUp hu
  obtain ⟨y, h1, h2, h3⟩ := slides_set ht (pc := .idle) (.inl rfl) u x hx
  have e : x.wakeUp.view = x.view ∧ found x.wakeUp.pc = found x.pc := by
    obtain ⟨pc, v⟩ := x
    cases pc <;> exact ⟨rfl, rfl⟩
  refine ⟨y, h1, h2.trans e.1.symm, ?_⟩
  unfold Slides
  rw [e.2]
  exact h3

theorem shape {s s' : ManualFutex.St} {t : Nat} {th : Th} {a : ManualFutex.Act} {es : List ManualFutex.Ev} (ht : s.ths[t]? = some th)
    (hd : direct th.pc a = true) (h : ManualFutex.step s (t, a) = some (s', es)) : Shape s t th s' es := by
  unfold ManualFutex.step at h
  simp only [ht] at h
  split at h
  all_goals try contradiction
  all_goals (repeat' split at h)
  all_goals try contradiction
  all_goals
    simp only [Option.some.injEq, Prod.mk.injEq] at h
    obtain ⟨rfl, rfl⟩ := h
  all_goals first
    | (with_reducible refine Shape.work ?_; assumption)
    | (refine Shape.still _ _ (slides_set ht ?_) (by simp) (by rw [‹th.pc = _›]; rfl)
       first
         | exact .inl rfl
         | (refine .inr (.inl ?_); rw [‹th.pc = _›]; rfl)
         | (refine .inr (.inr ⟨rfl, ?_⟩); rw [‹th.pc = _›]; exact ⟨_, rfl⟩))
    | (refine Shape.still _ _ (slides_wake ht) (by simp) (by rw [‹th.pc = _›]; rfl); done)
    | (refine Shape.rmw _ _ _ _ _ ?_ (by rw [‹th.pc = _›]; rfl) (Nat.le_succ _) (fun _ => .inr (Nat.lt_succ_self _)) (.inl rfl)
       first | simp; done | exact ret_not_work _ _ _)
    | (refine Shape.rmw _ _ _ s.sets _ ?_ (by rw [‹th.pc = _›]; rfl) (Nat.le_refl _) ?_ (.inl rfl)
       · first | simp; done | exact ret_not_work _ _ _
       · intro h
         first
           | (rw [isSet_and] at h; cases h)
           | (rw [isSet_sub] at h; exact .inl h))
    | (refine Shape.rmw _ _ _ s.sets _ (by simp) (by rw [‹th.pc = _›]; rfl) (Nat.le_refl _) (fun h => .inl (by rw [isSet_add] at h; exact h)) ?_
       first
         | exact .inr (.inl ⟨‹_›, rfl⟩)
         | exact .inr (.inr ⟨Bool.eq_false_iff.mpr ‹_›, rfl⟩))
    | (exfalso; simp_all [direct]; done)
    | skip

/-! ## What has been observed -/

/-- What holds of what is published with the `i`-th value. -/
structure Pub (tr : List Ev) (f : Nat) (k : View) (i : Nat) : Prop where
  ids : ∀ id ∈ k, id < f
  old : ∀ a u w b, tr = a ++ .changed u w :: b → ∀ id, Ev.ev (.work u id) ∈ b → id ∈ k → (values a).length ≤ i

theorem Own.toPub {tr : List Ev} {f t : Nat} {k : View} {p : Nat} (h : Own tr f t k p) : Pub tr f k p := ⟨h.ids, h.old⟩

theorem Pub.le {tr : List Ev} {f : Nat} {k : View} {i j : Nat} (h : Pub tr f k i) (hij : i ≤ j) : Pub tr f k j :=
  ⟨h.ids, fun a u w b he id hw hi => Nat.le_trans (h.old a u w b he id hw hi) hij⟩

theorem Pub.append {tr : List Ev} {f : Nat} {k k' : View} {i : Nat} (h : Pub tr f k i) (h' : Pub tr f k' i) : Pub tr f (k ++ k') i where
  ids id hi := by
    rcases List.mem_append.mp hi with hi | hi
    · exact h.ids id hi
    · exact h'.ids id hi
  old a u w b he id hw hi := by
    rcases List.mem_append.mp hi with hi | hi
    · exact h.old a u w b he id hw hi
    · exact h'.old a u w b he id hw hi

/-- Later events. -/
theorem Pub.later {tr es : List Ev} {f f' : Nat} {k : View} {i : Nat} (h : Pub tr f k i) (hf : f ≤ f') (hes : ∀ u id, Ev.ev (.work u id) ∈ es → id ∉ k) :
    Pub (tr ++ es) f' k i where
  ids id hi := Nat.lt_of_lt_of_le (h.ids id hi) hf
  old a u w b he id hw hi := by
    rcases split_append he with ⟨b', h1, rfl⟩ | ⟨c, h1, h2⟩
    · rcases List.mem_append.mp hw with hw | hw
      · exact h.old a u w b' h1 id hw hi
      · exact absurd hi (hes u id hw)
    · exact absurd hi (hes u id (by rw [h2]; simp [hw]))

theorem own_of {tr : List Ev} {f t : Nat} {k k' : View} {p q : Nat} (h : Own tr f t k p) (h' : Pub tr f k' q) (hpq : p ≤ q) (hq : q < (values tr).length) :
    Own tr f t k' q := ⟨hq, h'.ids, h'.old, fun a w b he => Nat.le_trans (h.mine a w b he) hpq⟩

/-- What a thread inside a wait has found was there. -/
def Seen (hist : List (Loc UInt32)) (sets p : Nat) (pc : PC) : Prop :=
  (∀ c o, found pc = some (c, o) → ∃ m, hist[p]? = some m ∧ isSet m.val = c) ∧
  ∀ c b, found pc = some (c, some b) → b ≤ sets ∧ ∀ i m, p ≤ i → hist[i]? = some m → isSet m.val = true → b < sets

structure Inv (tr : List Ev) (s : St) : Prop where
  hist : s.hist.map Loc.val = values tr
  last : s.hist.getLast? = some s.base.word
  fresh : ∀ u id, Ev.ev (.work u id) ∈ tr → id < s.base.fresh
  msg : ∀ i m, s.hist[i]? = some m → Pub tr s.base.fresh m.msg i
  own : ∀ (t : Nat) th p, s.base.ths[t]? = some th → s.pos[t]? = some p → Own tr s.base.fresh t th.view p
  seen : ∀ (t : Nat) th p, s.base.ths[t]? = some th → s.pos[t]? = some p → Seen s.hist s.base.sets p th.pc

theorem seen_none {hist : List (Loc UInt32)} {sets p : Nat} {pc : PC} (h : found pc = none) : Seen hist sets p pc :=
  ⟨fun c o e => by (rw [h] at e; cases e), fun c b e => by (rw [h] at e; cases e)⟩

theorem Seen.slides {hist : List (Loc UInt32)} {sets p : Nat} {pc pc' : PC} (h : Seen hist sets p pc) (hs : Slides pc pc') : Seen hist sets p pc' := by
  rcases hs with hs | hs | ⟨hs, b, hb⟩
  · exact seen_none hs
  · exact ⟨fun c o e => h.1 c o (hs ▸ e), fun c b e => h.2 c b (hs ▸ e)⟩
  · refine ⟨fun c o e => ?_, fun c b e => ?_⟩
    · rw [hs] at e; cases e; exact h.1 false _ hb
    · rw [hs] at e; cases e

theorem Inv.len {tr : List Ev} {s : St} (I : Inv tr s) : s.hist.length = (values tr).length := by rw [← I.hist, List.length_map]

theorem inv_init (n : Nat) : Inv [] (init n) where
  hist := rfl
  last := rfl
  fresh := nofun
  msg i m h := by
    cases i with
    | zero => cases h; exact ⟨nofun, fun a u w b he => by simp at he⟩
    | succ i => cases h
  own t th p h h' := by
    rw [get_replicate (n := n) (i := t) h, get_replicate (n := n) (i := t) h']
    exact own_newest (fun id h => by cases h) rfl
  seen t th p h h' := by
    rw [get_replicate (n := n) (i := t) h]
    exact seen_none rfl

theorem get_append {l : List (Loc UInt32)} {i : Nat} {w x : Loc UInt32} (h : l[i]? = some w) : (l ++ [x])[i]? = some w := by
  rw [List.getElem?_append_left (List.getElem?_eq_some_iff.mp h).1]
  exact h

theorem get_snoc {l : List (Loc UInt32)} {i : Nat} {w x : Loc UInt32} (h : (l ++ [x])[i]? = some w) : l[i]? = some w ∨ (i = l.length ∧ w = x) := by
  by_cases hi : i < l.length
  · rw [List.getElem?_append_left hi] at h; exact .inl h
  · rw [List.getElem?_append_right (Nat.le_of_not_lt hi)] at h
    cases hj : i - l.length with
    | zero => rw [hj] at h; cases h; exact .inr ⟨by omega, rfl⟩
    | succ j => rw [hj] at h; cases h

theorem no_work {es : List ManualFutex.Ev} (he : ∀ u id, .work u id ∉ es) : ∀ u id, Ev.ev (.work u id) ∉ es.map Ev.ev := by
  intro u id hm
  obtain ⟨e', hm, h⟩ := List.mem_map.mp hm
  cases h
  exact he u id hm

theorem no_work' {es : List ManualFutex.Ev} {t : Nat} {w : UInt32} (he : ∀ u id, .work u id ∉ es) : ∀ u id, Ev.ev (.work u id) ∉ Ev.changed t w :: es.map Ev.ev := by
  intro u id hm
  rcases List.mem_cons.mp hm with h | hm
  · cases h
  · exact no_work he u id hm

/-- A thread loads the `i`-th value. -/
theorem inv_load {tr : List Ev} {s : St} {t : Nat} {th : Th} {p i : Nat} {m : Loc UInt32} (I : Inv tr s) (ht : s.base.ths[t]? = some th) (hp : s.pos[t]? = some p)
    (hm : s.hist[i]? = some m) (hpi : p ≤ i) {pc : PC} {v : View} (hv : v = th.view ∨ v = th.view ++ m.msg) (hs : Seen s.hist s.base.sets i pc)
    {es : List ManualFutex.Ev} (he : ∀ u id, .work u id ∉ es) :
    Inv (tr ++ es.map .ev) { s with base := { s.base with ths := s.base.ths.set t ⟨pc, v⟩ }, pos := s.pos.set t i } := by
  have O := I.own t th p ht hp
  have hlt : i < (values tr).length := by rw [← I.len]; exact (List.getElem?_eq_some_iff.mp hm).1
  have O' : Own tr s.base.fresh t v i := by
    have P := O.toPub.le hpi
    rcases hv with rfl | rfl
    · exact own_of O P hpi hlt
    · exact own_of O (P.append (I.msg i m hm)) hpi hlt
  have no := no_work he
  refine ⟨by rw [values_plain]; exact I.hist, I.last, ?_, ?_, ?_, ?_⟩
  · intro u id hw
    rcases List.mem_append.mp hw with hw | hw
    · exact I.fresh u id hw
    · exact absurd hw (no u id)
  · intro j x hx
    exact (I.msg j x hx).later (Nat.le_refl _) (fun u id hw => absurd hw (no u id))
  · intro u th' q hu hq
    rcases get_set_cases hu with ⟨rfl, rfl⟩ | ⟨hne, h3⟩
    · rw [get_set_self hp] at hq
      cases hq
      exact O'.plain (Nat.le_refl _) (fun u id hw => absurd hw (he u id))
    · rw [get_set_ne (fun h => hne h)] at hq
      exact (I.own u th' q h3 hq).plain (Nat.le_refl _) (fun u id hw => absurd hw (he u id))
  · intro u th' q hu hq
    rcases get_set_cases hu with ⟨rfl, rfl⟩ | ⟨hne, h3⟩
    · rw [get_set_self hp] at hq
      cases hq
      exact hs
    · rw [get_set_ne (fun h => hne h)] at hq
      exact I.seen u th' q h3 hq

theorem inv_step {tr es : List Ev} {s s' : St} {l : Nat × Act} (I : Inv tr s) (h : step s l = some (s', es)) : Inv (tr ++ es) s' := by
  obtain ⟨t, a⟩ := l
  unfold step at h
  simp only at h
  split at h
  · next th p ht hp =>
    have O := I.own t th p ht hp
    split at h
    · next a =>
      split at h
      · next hd =>
        split at h
        · cases h
        · next b es' hb =>
          have hshape := shape ht hd hb
          cases hshape with
          | still ths' es' hv he hw =>
            rw [hw] at h
            cases h
            have no := no_work he
            refine ⟨by rw [values_plain]; exact I.hist, I.last, ?_, ?_, ?_, ?_⟩
            · intro u id hm
              rcases List.mem_append.mp hm with hm | hm
              · exact I.fresh u id hm
              · exact absurd hm (no u id)
            · intro j x hx
              exact (I.msg j x hx).later (Nat.le_refl _) (fun u id hw => absurd hw (no u id))
            · intro u th' q hu hq
              obtain ⟨th'', h1, h2, _⟩ := hv u th' hu
              rw [← h2]
              exact (I.own u th'' q h1 hq).plain (Nat.le_refl _) (fun u id hm => absurd hm (he u id))
            · intro u th' q hu hq
              obtain ⟨th'', h1, _, h3⟩ := hv u th' hu
              exact (I.seen u th'' q h1 hq).slides h3
          | work hi =>
            rw [show writes th.pc = false by rw [hi]; rfl] at h
            cases h
            have new : ∀ {k : View}, (∀ id ∈ k, id < s.base.fresh) → ∀ u id, Ev.ev (.work u id) ∈ [Ev.ev (.work t s.base.fresh)] → id ∉ k := by
              intro k hk u id hw hm
              cases List.mem_singleton.mp hw
              exact Nat.lt_irrefl _ (hk _ hm)
            refine ⟨by rw [values_plain]; exact I.hist, I.last, ?_, ?_, ?_, ?_⟩
            · intro u id hm
              rcases List.mem_append.mp hm with hm | hm
              · exact Nat.lt_succ_of_lt (I.fresh u id hm)
              · cases List.mem_singleton.mp hm
                exact Nat.lt_succ_self _
            · intro j x hx
              exact (I.msg j x hx).later (Nat.le_succ _) (new (I.msg j x hx).ids)
            · intro u th' q hu hq
              rcases get_set_cases hu with ⟨rfl, rfl⟩ | ⟨hne, h3⟩
              · rw [hp] at hq
                cases hq
                refine ⟨Nat.lt_of_lt_of_le O.pos (values_le _ _), ?_, ?_, ?_⟩
                · intro id hm
                  rcases List.mem_cons.mp hm with rfl | hm
                  · exact Nat.lt_succ_self _
                  · exact Nat.lt_succ_of_lt (O.ids id hm)
                · intro a u w b he id hw hk
                  rcases split_append he with ⟨b', h1, rfl⟩ | ⟨c, h1, h2⟩
                  · rcases List.mem_append.mp hw with hw | hw
                    · rcases List.mem_cons.mp hk with rfl | hk
                      · have := I.fresh u s.base.fresh (by rw [h1]; simp [hw])
                        exact absurd this (Nat.lt_irrefl _)
                      · exact O.old a u w b' h1 id hw hk
                    · cases List.mem_singleton.mp hw
                      exact O.mine a w b' h1
                  · have : Ev.changed u w ∈ [Ev.ev (.work t s.base.fresh)] := by
                      change Ev.changed u w ∈ List.map Ev.ev [_]
                      rw [h2]; simp
                    cases List.mem_singleton.mp this
                · intro a w b he
                  rcases split_append he with ⟨b', h1, rfl⟩ | ⟨c, h1, h2⟩
                  · exact O.mine a w b' h1
                  · have : Ev.changed t w ∈ [Ev.ev (.work t s.base.fresh)] := by
                      change Ev.changed t w ∈ List.map Ev.ev [_]
                      rw [h2]; simp
                    cases List.mem_singleton.mp this
              · have O' := I.own u th' q h3 hq
                refine O'.plain (Nat.le_succ _) (fun u' id hm hk => ?_)
                cases List.mem_singleton.mp hm
                exact Nat.lt_irrefl _ (O'.ids _ hk)
            · intro u th' q hu hq
              rcases get_set_cases hu with ⟨rfl, rfl⟩ | ⟨hne, h3⟩
              · exact seen_none (by simp only [hi]; rfl)
              · exact I.seen u th' q h3 hq
          | rmw o new pc' n es' he hw hn hnew hf =>
            rw [hw] at h
            cases h
            have no := no_work' (t := t) (w := new) he
            obtain ⟨k, hk⟩ : ∃ k, s.hist.length = k + 1 := by
              have := I.len
              have : (values tr).length ≠ 0 := by simp [values]
              exact ⟨s.hist.length - 1, by omega⟩
            have hlast : s.hist[k]? = some s.base.word := by
              have := I.last
              rw [List.getLast?_eq_getElem?, hk] at this
              exact this
            have hpk : p ≤ k := by
              have := O.pos
              have := I.len
              omega
            have P1 := O.toPub.le hpk
            have P2 := I.msg k _ hlast
            have P3 : Pub tr s.base.fresh (s.base.word.rmw o th.view new).2 k := by
              unfold Loc.rmw
              simp only
              split
              · exact P1.append P2
              · exact P1
            have P4 : Pub tr s.base.fresh (s.base.word.rmw o th.view new).1.msg k := by
              unfold Loc.rmw at P3 ⊢
              simp only at P3 ⊢
              split
              · exact P2.append P3
              · exact P2
            refine ⟨?_, ?_, ?_, ?_, ?_, ?_⟩
            · rw [values_changed, List.map_append, I.hist]; rfl
            · simp
            · intro u id hm
              rcases List.mem_append.mp hm with hm | hm
              · exact I.fresh u id hm
              · exact absurd hm (no u id)
            · intro j x hx
              rcases get_snoc hx with hx | ⟨rfl, rfl⟩
              · exact (I.msg j x hx).later (Nat.le_refl _) (fun u id hw => absurd hw (no u id))
              · exact (P4.le (by omega)).later (Nat.le_refl _) (fun u id hw => absurd hw (no u id))
            · intro u th' q hu hq
              rcases get_set_cases hu with ⟨rfl, rfl⟩ | ⟨hne, h3⟩
              · simp only at hq
                rw [get_set_self hp] at hq
                cases hq
                refine own_newest P3.ids ?_
                rw [values_changed, I.len]; simp
              · simp only at hq
                rw [get_set_ne (fun h => hne h)] at hq
                exact (I.own u th' q h3 hq).other (fun h => hne h) he
            · intro u th' q hu hq
              rcases get_set_cases hu with ⟨rfl, rfl⟩ | ⟨hne, h3⟩
              · simp only at hq
                rw [get_set_self hp] at hq
                cases hq
                have hnew' : (s.hist ++ [(s.base.word.rmw o th.view new).1])[s.hist.length]? = some (s.base.word.rmw o th.view new).1 := by simp
                rcases hf with hf | ⟨h1, hf⟩ | ⟨h1, hf⟩
                · exact seen_none hf
                · refine ⟨fun c o e => ?_, fun c b e => ?_⟩
                  · simp only [hf] at e; cases e; exact ⟨_, hnew', h1⟩
                  · simp only [hf] at e; cases e
                · refine ⟨fun c o e => ?_, fun c b e => ?_⟩
                  · simp only [hf] at e; cases e; exact ⟨_, hnew', h1⟩
                  · simp only [hf] at e
                    cases e
                    refine ⟨Nat.le_refl _, fun i m hi hm hs => ?_⟩
                    rcases get_snoc hm with hm | ⟨_, rfl⟩
                    · have := (List.getElem?_eq_some_iff.mp hm).1
                      omega
                    · have : isSet new = true := hs
                      rw [h1] at this; cases this
              · simp only at hq
                rw [get_set_ne (fun h => hne h)] at hq
                have S := I.seen u th' q h3 hq
                refine ⟨fun c o e => ?_, fun c b e => ⟨Nat.le_trans (S.2 c b e).1 hn, fun i m hi hm hs => ?_⟩⟩
                · obtain ⟨m, h1, h2⟩ := S.1 c o e
                  exact ⟨m, get_append h1, h2⟩
                · rcases get_snoc hm with hm | ⟨_, rfl⟩
                  · exact Nat.lt_of_lt_of_le ((S.2 c b e).2 i m hi hm hs) hn
                  · rcases hnew hs with h1 | h1
                    · have hqk : q ≤ k := by
                        have := (I.own u th' q h3 hq).pos
                        have := I.len
                        omega
                      exact Nat.lt_of_lt_of_le ((S.2 c b e).2 k _ hqk hlast h1) hn
                    · exact Nat.lt_of_le_of_lt (S.2 c b e).1 h1
      · cases h
    · split at h
      · cases h
      · next m hm =>
        split at h
        · next hpi =>
          split at h
          · next k hk =>
            split at h
            · cases h
              exact inv_load I ht hp hm hpi (.inr rfl) (seen_none rfl) (es := [_]) (ret_not_work _ _ _)
            · split at h
              · cases h
                exact inv_load I ht hp hm hpi (.inr rfl) (seen_none rfl) (es := [_]) (by simp)
              · cases h
                exact inv_load I ht hp hm hpi (.inr rfl) (seen_none rfl) (es := []) (by simp)
          · next k b hk =>
            have S := I.seen t th p ht hp
            split at h
            · next hs =>
              cases h
              refine inv_load I ht hp hm hpi (.inl rfl) ⟨fun c o e => ?_, fun c b e => ?_⟩ (es := []) (by simp)
              · cases e; exact ⟨m, hm, hs⟩
              · cases e
            · next hs =>
              cases h
              refine inv_load I ht hp hm hpi (.inl rfl) ⟨fun c o e => ?_, fun c b' e => ?_⟩ (es := []) (by simp)
              · cases e; exact ⟨m, hm, Bool.eq_false_iff.mpr hs⟩
              · cases e
                have S' := S.2 false b (by rw [hk]; rfl)
                exact ⟨S'.1, fun j x hj hx h1 => S'.2 j x (Nat.le_trans hpi hj) hx h1⟩
          · cases h
        · cases h
    · next u =>
      split at h
      · next th' q hu hq =>
        split at h
        · next hidle =>
          cases h
          have O' := I.own u th' q hu hq
          rw [List.append_nil]
          have P : Pub tr s.base.fresh (th.view ++ th'.view) (max p q) := (O.toPub.le (Nat.le_max_left _ _)).append (O'.toPub.le (Nat.le_max_right _ _))
          refine ⟨I.hist, I.last, I.fresh, I.msg, ?_, ?_⟩
          · intro u' th'' q' hu' hq'
            rcases get_set_cases hu' with ⟨rfl, rfl⟩ | ⟨hne, h3⟩
            · simp only at hq'
              rw [get_set_self hp] at hq'
              cases hq'
              exact own_of O P (Nat.le_max_left _ _) (by have := O.pos; have := O'.pos; omega)
            · simp only at hq'
              rw [get_set_ne (fun h => hne h)] at hq'
              exact I.own u' th'' q' h3 hq'
          · intro u' th'' q' hu' hq'
            rcases get_set_cases hu' with ⟨rfl, rfl⟩ | ⟨hne, h3⟩
            · exact seen_none (by simp only [hidle.1]; rfl)
            · simp only at hq'
              rw [get_set_ne (fun h => hne h)] at hq'
              exact I.seen u' th'' q' h3 hq'
        · cases h
      · cases h
  · cases h

theorem inv_exec {n : Nat} {tr : List Ev} {s : St} (h : Exec step (init n) tr s) : Inv tr s :=
  h.invariant Inv (inv_init n) (fun _ _ _ _ _ I hs => inv_step I hs)

/-! ## The counting invariants and publication do not depend on which values are loaded -/

/-- Loads move only the thread that makes them; so does `sync`. -/
theorem base_step {s s' : St} {t : Nat} {a : Act} {es : List Ev} {tr : List Ev} (I : Inv tr s) (h : step s (t, a) = some (s', es)) :
    (∃ a', ManualFutex.step s.base (t, a') = some (s'.base, plain es)) ∨
    ∃ th v pc, s.base.ths[t]? = some th ∧ s'.base = { s.base with ths := s.base.ths.set t ⟨pc, v⟩ } ∧ th.view ⊆ v ∧
      ((plain es = [] ∧ pc = th.pc) ∨ (∃ k, th.pc = .tryLoad k ∧ ((pc = .idle ∧ (plain es = [retEv t k true] ∨ plain es = [.tryDone t false])) ∨ (pc = .add k ∧ plain es = []))) ∨
       ∃ k b, th.pc = .reload k b ∧ plain es = [] ∧ ((pc = .sub k ∧ b < s.base.sets) ∨ ∃ e, pc = .sleepCall k e b ∧ isSet e = false)) := by
  unfold step at h
  simp only at h
  split at h
  · next th p ht hp =>
    split at h
    · split at h
      · split at h
        · cases h
        · next a' b es' hb =>
          split at h
          · cases h
            rw [plain_changed]
            exact .inl ⟨_, hb⟩
          · cases h
            rw [plain_ev]
            exact .inl ⟨_, hb⟩
      · cases h
    · split at h
      · cases h
      · next m hm =>
        split at h
        · next hpi =>
          have hsub : th.view ⊆ m.loadView takeOrder th.view := by
            intro x hx
            simp [Loc.loadView, takeOrder, Order.isAcquire, hx]
          split at h
          · next k hk =>
            split at h
            · cases h
              exact .inr ⟨th, _, _, ht, rfl, hsub, .inr (.inl ⟨k, hk, .inl ⟨rfl, .inl rfl⟩⟩)⟩
            · split at h
              · cases h
                exact .inr ⟨th, _, _, ht, rfl, hsub, .inr (.inl ⟨k, hk, .inl ⟨rfl, .inr rfl⟩⟩)⟩
              · cases h
                exact .inr ⟨th, _, _, ht, rfl, hsub, .inr (.inl ⟨k, hk, .inr ⟨rfl, rfl⟩⟩)⟩
          · next k b hk =>
            split at h
            · next hs =>
              cases h
              exact .inr ⟨th, _, _, ht, rfl, List.Subset.refl _, .inr (.inr ⟨k, b, hk, rfl, .inl ⟨rfl,
                ((I.seen t th p ht hp).2 false b (by rw [hk]; rfl)).2 _ m hpi hm hs⟩⟩)⟩
            · next hs =>
              cases h
              exact .inr ⟨th, _, _, ht, rfl, List.Subset.refl _, .inr (.inr ⟨k, b, hk, rfl, .inr ⟨_, rfl, Bool.eq_false_iff.mpr hs⟩⟩)⟩
          · cases h
        · cases h
    · split at h
      · split at h
        · cases h
          exact .inr ⟨th, _, _, ht, rfl, List.subset_append_left _ _, .inl ⟨rfl, rfl⟩⟩
        · cases h
      · cases h
  · cases h

theorem base_inv {n : Nat} (hn : n < 2147483648) {tr : List Ev} {s : St} (h : Exec step (init n) tr s) : ManualFutex.Inv (plain tr) s.base := by
  induction h with
  | init => exact ManualFutex.inv_init hn
  | snoc hE hs ih =>
    rename_i tr s s' l es
    obtain ⟨t, a⟩ := l
    rw [plain_append]
    rcases base_step (inv_exec hE) hs with ⟨a', hb⟩ | ⟨th, v, pc, ht, hb, _, hc⟩
    · exact ManualFutex.step_inv ih hb
    · rw [hb]
      have L := ih.loc t th ht
      rcases hc with ⟨he, rfl⟩ | ⟨k, hk, ⟨rfl, he | he⟩ | ⟨rfl, he⟩⟩ | ⟨k, b, hk, he, ⟨rfl, hlt⟩ | ⟨e, rfl, hz⟩⟩
      · rw [he]
        have c : ∀ (p : Th → Bool), p ⟨th.pc, v⟩ = p th → (s.base.ths.set t ⟨th.pc, v⟩).countP p = s.base.ths.countP p := by
          intro p hp
          have := countP_set (p := p) (b := ⟨th.pc, v⟩) ht
          rw [hp] at this
          omega
        refine ⟨by simpa using ih.len, ?_, ?_, ?_, ?_⟩
        · rw [c _ rfl]; exact ih.word
        · rw [c _ rfl, c _ rfl]; exact ih.wake
        · rw [List.append_nil]; exact ih.flag
        · intro i x hx
          rw [List.append_nil]
          rcases get_set_cases hx with ⟨rfl, rfl⟩ | ⟨hne, hx⟩
          · exact L
          · exact ih.loc i x hx
      · rw [he]
        exact ManualFutex.inv_goto ih ht (ManualFutex.nocall_one (fun i => ManualFutex.retEv_nocall _ _ _ i)) (by simp only [ManualFutex.Th.blocked, hk]; rfl)
          (fun h => nomatch h) (by simp only [ManualFutex.Th.waking, hk]; rfl) (ManualFutex.retEv_flag _ _ _ _) trivial
      · rw [he]
        exact ManualFutex.inv_goto ih ht (ManualFutex.nocall_one (fun _ => rfl)) (by simp only [ManualFutex.Th.blocked, hk]; rfl)
          (fun h => nomatch h) (by simp only [ManualFutex.Th.waking, hk]; rfl) rfl trivial
      · rw [he]
        exact ManualFutex.inv_goto ih ht (ManualFutex.nocall_nil _) (by simp only [ManualFutex.Th.blocked, hk]; rfl)
          (fun h => nomatch h) (by simp only [ManualFutex.Th.waking, hk]; rfl) rfl trivial
      · rw [he]
        refine ManualFutex.inv_goto ih ht (ManualFutex.nocall_nil _) (by simp only [ManualFutex.Th.blocked, hk]; rfl)
          (fun h => nomatch h) (by simp only [ManualFutex.Th.waking, hk]; rfl) rfl ?_
        rw [List.append_nil]
        rw [hk] at L
        exact L.2 hlt
      · rw [he]
        refine ManualFutex.inv_goto ih ht (ManualFutex.nocall_nil _) (by simp only [ManualFutex.Th.blocked, hk]; rfl)
          (fun h => nomatch h) (by simp only [ManualFutex.Th.waking, hk]; rfl) rfl ?_
        rw [List.append_nil]
        rw [hk] at L
        exact ⟨hz, L.1, L.2⟩

/-- What a step does to what is observed and published. -/
theorem views {tr : List Ev} {s s' : St} {l : Nat × Act} {es : List Ev} (I : Inv tr s) (h : step s l = some (s', es)) :
    (∀ (j : Nat) (th : Th), s.base.ths[j]? = some th → ∃ th', s'.base.ths[j]? = some th' ∧ th.view ⊆ th'.view) ∧
    s.base.word.msg ⊆ s'.base.word.msg ∧
    (∀ e ∈ plain es, ∀ j, relOf e = some j → ∀ th, s.base.ths[j]? = some th → th.view ⊆ s'.base.word.msg) ∧
    (∀ e ∈ plain es, ∀ j id, workOf e = some (j, id) → ∃ th', s'.base.ths[j]? = some th' ∧ id ∈ th'.view) ∧
    (∀ e ∈ plain es, (relOf e).isSome = true → ∀ e' ∈ plain es, workOf e' = none) := by
  obtain ⟨t, a⟩ := l
  rcases base_step I h with ⟨a', hb⟩ | ⟨th, v, pc, ht, hb, hv, hc⟩
  · obtain ⟨g1, g2, g3, g4, g5, _⟩ := ManualFutex.step_view hb
    exact ⟨g1, g2, g3, g4, g5⟩
  · have hq : ∀ e ∈ plain es, relOf e = none ∧ workOf e = none := by
      rcases hc with ⟨he, _⟩ | ⟨k, _, ⟨_, he | he⟩ | ⟨_, he⟩⟩ | ⟨_, _, _, he, _⟩
      all_goals rw [he]; intro e hm
      · cases hm
      · rw [List.mem_singleton.mp hm]; exact ⟨ManualFutex.retEv_rel _ _ _, ManualFutex.retEv_work _ _ _⟩
      · rw [List.mem_singleton.mp hm]; exact ⟨rfl, rfl⟩
      · cases hm
      · cases hm
    rw [hb]
    refine ⟨ManualFutex.grow_set ht hv, List.Subset.refl _, ?_, ?_, ?_⟩
    · intro e he j hr
      rw [(hq e he).1] at hr; cases hr
    · intro e he j id hw
      rw [(hq e he).2] at hw; cases hw
    · intro e he hr
      rw [(hq e he).1] at hr; cases hr

theorem vinv_exec {n : Nat} {tr : List Ev} {s : St} (h : Exec step (init n) tr s) : VInv (plain tr) s.base := by
  induction h with
  | init => exact ⟨by simp [plain], fun id hp => absurd hp not_published_nil⟩
  | snoc hE hs ih =>
    rename_i tr s s' l es
    obtain ⟨h1, h2⟩ := ih
    obtain ⟨g1, g2, g3, g4, g5⟩ := views (inv_exec hE) hs
    rw [plain_append]
    constructor
    · intro e he j id hw
      rcases List.mem_append.mp he with he | he
      · obtain ⟨th, h3, h4⟩ := h1 e he j id hw
        obtain ⟨th', h5, h6⟩ := g1 j th h3
        exact ⟨th', h5, h6 h4⟩
      · exact g4 e he j id hw
    · intro id hp
      rcases published_append hp with hp | ⟨e, he, j, w, hr, hw, hwk⟩
      · exact g2 (h2 id hp)
      · rcases List.mem_append.mp hw with hw | hw
        · obtain ⟨th, h3, h4⟩ := h1 w hw j id hwk
          exact g3 e he j hr th h3 h4
        · have := g5 e he (by rw [hr]; rfl) w hw
          rw [this] at hwk; cases hwk

/-! ## Instants -/

/-- What a step appends to the values is the present one. -/
theorem hist_step {s s' : St} {l : Nat × Act} {es : List Ev} (h : step s l = some (s', es)) :
    s'.hist = s.hist ∨ s'.hist = s.hist ++ [s'.base.word] := by
  obtain ⟨t, a⟩ := l
  unfold step at h
  simp only at h
  repeat' split at h
  all_goals first
    | (cases h; done)
    | (cases h; exact .inl rfl)
    | (cases h; exact .inr rfl)

/-- Every value of the word was its value at some instant. -/
theorem instant {n : Nat} {tr : List Ev} {s : St} (h : Exec step (init n) tr s) {i : Nat} {x : Loc UInt32} (hx : s.hist[i]? = some x) :
    ∃ tr₁ s₁ tr₂, tr = tr₁ ++ tr₂ ∧ Exec step (init n) tr₁ s₁ ∧ (values tr₁).length = i + 1 ∧ s₁.base.word = x := by
  induction h with
  | init =>
    cases i with
    | zero => cases hx; exact ⟨[], _, [], rfl, .init, rfl, rfl⟩
    | succ i => cases hx
  | snoc hE hs ih =>
    rename_i tr s s' l es
    by_cases hi : i < s.hist.length
    · obtain ⟨tr₁, s₁, tr₂, e, h1, h3, h4⟩ := ih (by
        rcases hist_step hs with hv | hv
        · rw [hv] at hx; exact hx
        · rw [hv, List.getElem?_append_left hi] at hx; exact hx)
      exact ⟨tr₁, s₁, tr₂ ++ es, by rw [e, List.append_assoc], h1, h3, h4⟩
    · rcases hist_step hs with hv | hv
      · rw [hv] at hx
        exact absurd (List.getElem?_eq_some_iff.mp hx).1 hi
      · rw [hv] at hx
        rcases get_snoc hx with hx | ⟨h1, h2⟩
        · exact absurd (List.getElem?_eq_some_iff.mp hx).1 hi
        · refine ⟨tr ++ es, s', [], (List.append_nil _).symm, hE.snoc hs, ?_, h2.symm⟩
          have := (inv_exec (hE.snoc hs)).len
          rw [hv] at this
          simp at this
          omega

/-- The instant at which the value that thread `t` has observed was current. -/
theorem pos_instant {n : Nat} {tr : List Ev} {s : St} (h : Exec step (init n) tr s) {t : Nat} {th : Th} (ht : s.base.ths[t]? = some th) {p i : Nat}
    (hp : s.pos[t]? = some p) (hi : p ≤ i) {x : Loc UInt32} (hx : s.hist[i]? = some x) {P : List ManualFutex.Ev → Prop}
    (hP : ∀ tr₁ s₁, Exec step (init n) tr₁ s₁ → s₁.base.word = x → (∃ tr₂, tr = tr₁ ++ tr₂) → P (plain tr₁)) : Instant t th.view tr P := by
  have O := (inv_exec h).own t th p ht hp
  obtain ⟨tr₁, s₁, tr₂, e, h1, h3, h4⟩ := instant h hx
  refine ⟨tr₁, tr₂, e, hP tr₁ s₁ h1 h4 ⟨_, e⟩, ?_⟩
  rintro a ev c hev ⟨u, y, rfl, hk⟩
  have hpos : (values a).length ≤ p := by
    rcases hk with rfl | ⟨id, hw, hm⟩
    · exact O.mine a y c hev
    · exact O.old a u y c hev id hw hm
  have hlt : (values a).length < (values tr₁).length := by omega
  rw [e] at hev
  rcases List.append_eq_append_iff.mp hev with ⟨c', k1, k2⟩ | ⟨c', k1, k2⟩
  · rw [k1] at hlt
    have := values_le tr₁ c'
    omega
  · cases c' with
    | nil => rw [k1, List.append_nil] at hlt; omega
    | cons z c' =>
      simp only [List.cons_append, List.cons.injEq] at k2
      obtain ⟨rfl, _⟩ := k2
      exact ⟨c', k1⟩

theorem newest_of_informed {n : Nat} {tr : List Ev} {s : St} (h : Exec step (init n) tr s) {t : Nat} {th : Th} (ht : s.base.ths[t]? = some th) {p : Nat}
    (hp : s.pos[t]? = some p) (hi : Informed t th.view tr) {i : Nat} (hpi : p ≤ i) {m : Loc UInt32} (hm : s.hist[i]? = some m) : m = s.base.word := by
  have I := inv_exec h
  have O := I.own t th p ht hp
  have hil := (List.getElem?_eq_some_iff.mp hm).1
  rw [I.len] at hil
  have e : p + 1 = (values tr).length := by
    have := O.pos
    rcases last_change tr with h1 | ⟨a, u, w, b, e, h1⟩
    · omega
    · have : (values a).length ≤ p := by
        obtain ⟨u', w', hc, hk⟩ := hi a _ b e ⟨u, w, rfl⟩
        cases hc
        rcases hk with rfl | ⟨id, hw, hm⟩
        · exact O.mine a w b e
        · exact O.old a u w b e id hw hm
      omega
  have hl := I.last
  rw [List.getLast?_eq_getElem?, I.len, show (values tr).length - 1 = i by omega, hm] at hl
  exact Option.some.inj hl

/-! ## Which steps end a call -/

theorem mem_plain {es : List Ev} {e : ManualFutex.Ev} : e ∈ plain es ↔ .ev e ∈ es := by
  unfold plain
  rw [List.mem_filterMap]
  constructor
  · rintro ⟨x, hx, h⟩
    cases x with
    | ev y => cases h; exact hx
    | changed u w => cases h
  · intro h; exact ⟨_, h, rfl⟩

theorem base_success {s s' : ManualFutex.St} {t : Nat} {th : Th} {a : ManualFutex.Act} {es : List ManualFutex.Ev} (ht : s.ths[t]? = some th)
    (hd : direct th.pc a = true) (h : ManualFutex.step s (t, a) = some (s', es)) {e : ManualFutex.Ev} (he : e ∈ es) {u : Nat} (hsucc : successOf e = some u) :
    u = t ∧ ∃ k, th.pc = .sub k ∧ s'.ths[t]? = some ⟨.idle, th.view ++ s.word.msg⟩ := by
  unfold ManualFutex.step at h
  simp only [ht] at h
  split at h
  all_goals try contradiction
  all_goals (repeat' split at h)
  all_goals try contradiction
  all_goals
    simp only [Option.some.injEq, Prod.mk.injEq] at h
    obtain ⟨rfl, rfl⟩ := h
  all_goals first
    | (cases he; done)
    | (cases List.mem_singleton.mp he; cases hsucc; done)
    | (exact (ManualFutex.no_two he rfl rfl hsucc).elim)
    | (exfalso; simp_all [direct]; done)
    | (cases List.mem_singleton.mp he
       exact ⟨(ManualFutex.success_ret hsucc).symm, _, ‹_›, get_set_self ht⟩)

/-- A wait succeeds at its load of line 86, or at line 81. -/
theorem succeeds {s s' : St} {t : Nat} {a : Act} {es : List Ev} (h : step s (t, a) = some (s', es)) {e : ManualFutex.Ev} (he : .ev e ∈ es) {u : Nat}
    (hsucc : successOf e = some u) :
    u = t ∧ ∃ th p, s.base.ths[t]? = some th ∧ s.pos[t]? = some p ∧
      ((∃ k i m, th.pc = .tryLoad k ∧ p ≤ i ∧ s.hist[i]? = some m ∧ isSet m.val = true ∧ s'.base.ths[t]? = some ⟨.idle, th.view ++ m.msg⟩) ∨
       ∃ k, th.pc = .sub k ∧ s'.base.ths[t]? = some ⟨.idle, th.view ++ s.base.word.msg⟩) := by
  unfold step at h
  simp only at h
  split at h
  · next th p ht hp =>
    split at h
    · next a' =>
      split at h
      · next hd =>
        split at h
        · cases h
        · next b es' hb =>
          have hm : e ∈ es' := by
            split at h
            · cases h
              have := mem_plain.mpr he
              rwa [plain_changed] at this
            · cases h
              have := mem_plain.mpr he
              rwa [plain_ev] at this
          obtain ⟨hu, k, hk, hv⟩ := base_success ht hd hb hm hsucc
          refine ⟨hu, th, p, ht, hp, .inr ⟨k, hk, ?_⟩⟩
          split at h
          · cases h; exact hv
          · cases h; exact hv
      · cases h
    · split at h
      · cases h
      · next i _ m hmi =>
        split at h
        · next hpi =>
          split at h
          · next k hk =>
            split at h
            · next hs =>
              cases h
              cases List.mem_singleton.mp he
              refine ⟨(ManualFutex.success_ret hsucc).symm, th, p, ht, hp, .inl ⟨k, i, m, hk, hpi, hmi, hs, ?_⟩⟩
              exact get_set_self ht
            · split at h
              · cases h
                cases List.mem_singleton.mp he
                cases hsucc
              · cases h; cases he
          · split at h
            · cases h; cases he
            · cases h; cases he
          · cases h
        · cases h
    · split at h
      · split at h
        · cases h; cases he
        · cases h
      · cases h
  · cases h

theorem base_fail {s s' : ManualFutex.St} {t : Nat} {th : Th} {a : ManualFutex.Act} {es : List ManualFutex.Ev} (ht : s.ths[t]? = some th)
    (hd : direct th.pc a = true) (h : ManualFutex.step s (t, a) = some (s', es)) {u : Nat} (he : .tryDone u false ∈ es ∨ .timedDone u false ∈ es) :
    u = t ∧ th.pc = .timedOut := by
  unfold ManualFutex.step at h
  simp only [ht] at h
  split at h
  all_goals try contradiction
  all_goals (repeat' split at h)
  all_goals try contradiction
  all_goals
    simp only [Option.some.injEq, Prod.mk.injEq] at h
    obtain ⟨rfl, rfl⟩ := h
  all_goals first
    | (simp at he; done)
    | (exfalso; simp_all [direct]; done)
    | (exfalso; rename_i k _; cases k <;> simp [retEv] at he; done)
    | (simp only [List.mem_singleton, reduceCtorEq, false_or] at he
       cases he
       exact ⟨rfl, ‹_›⟩)

/-- A wait fails at its load of line 86, or after a timeout. -/
theorem fails {s s' : St} {t : Nat} {a : Act} {es : List Ev} (h : step s (t, a) = some (s', es)) {u : Nat}
    (he : .ev (.tryDone u false) ∈ es ∨ .ev (.timedDone u false) ∈ es) :
    u = t ∧ ∃ th p, s.base.ths[t]? = some th ∧ s.pos[t]? = some p ∧
      ((∃ i m, th.pc = .tryLoad .tryOnly ∧ p ≤ i ∧ s.hist[i]? = some m ∧ isSet m.val = false) ∨ th.pc = .timedOut) := by
  rw [← mem_plain, ← mem_plain] at he
  unfold step at h
  simp only at h
  split at h
  · next th p ht hp =>
    split at h
    · next a' =>
      split at h
      · next hd =>
        split at h
        · cases h
        · next b es' hb =>
          have : u = t ∧ th.pc = .timedOut := by
            split at h
            · cases h
              rw [plain_changed] at he
              exact base_fail ht hd hb he
            · cases h
              rw [plain_ev] at he
              exact base_fail ht hd hb he
          exact ⟨this.1, th, p, ht, hp, .inr this.2⟩
      · cases h
    · split at h
      · cases h
      · next i _ m hmi =>
        split at h
        · next hpi =>
          split at h
          · next k hk =>
            split at h
            · next hs =>
              cases h
              exfalso
              cases k <;> simp [plain, retEv] at he
            · next hs =>
              split at h
              · next hk' =>
                subst hk'
                cases h
                have : u = t := by
                  rcases he with he | he
                  · simp [plain] at he; exact he
                  · simp [plain] at he
                exact ⟨this, th, p, ht, hp, .inl ⟨i, m, hk, hpi, hmi, Bool.eq_false_iff.mpr hs⟩⟩
              · cases h; simp [plain] at he
          · split at h
            · cases h; simp [plain] at he
            · cases h; simp [plain] at he
          · cases h
        · cases h
    · split at h
      · split at h
        · cases h; simp [plain] at he
        · cases h
      · cases h
  · cases h

theorem base_len {s s' : ManualFutex.St} {l : Nat × ManualFutex.Act} {es : List ManualFutex.Ev} (h : ManualFutex.step s l = some (s', es)) :
    s'.ths.length = s.ths.length := by
  obtain ⟨t, a⟩ := l
  unfold ManualFutex.step at h
  simp only at h
  repeat' split at h
  all_goals first
    | (cases h; done)
    | (cases h; simp)

theorem pos_len {n : Nat} {tr : List Ev} {s : St} (h : Exec step (init n) tr s) : s.pos.length = s.base.ths.length := by
  refine h.invariant (fun _ s => s.pos.length = s.base.ths.length) (by simp [init, ManualFutex.init]) ?_
  intro tr s l s' es hl hs
  obtain ⟨t, a⟩ := l
  unfold step at hs
  simp only at hs
  repeat' split at hs
  all_goals first
    | (cases hs; done)
    | (cases hs; simp only [List.length_set]; exact hl)
    | (rename_i hb _; cases hs; simp only [List.length_set]; rw [base_len hb]; exact hl)

end Verif.ManualFutexOrder
