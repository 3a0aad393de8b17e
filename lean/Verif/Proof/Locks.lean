import Verif.Spec.Locks
import Verif.Base.Count

/-! # Helper lemmas for the lock objects -/

namespace Verif.Locks

theorem total_append (f : Ev → Int) (a b : List Ev) : total f (a ++ b) = total f a + total f b := by
  induction a with
  | nil => simp [total]
  | cons e a ih => simp only [List.cons_append, total, ih]; omega

/-- Both changes together. -/
def net (k : Kind) (m : Nat) (es : List Ev) : Int := total (mutexNet k m) es + total (userNet k m) es

theorem net_append (k : Kind) (m : Nat) (a b : List Ev) : net k m (a ++ b) = net k m a + net k m b := by
  unfold net; rw [total_append, total_append]; omega

theorem net_nil (k : Kind) (m : Nat) : net k m [] = 0 := rfl

/-- 1 if the lock object owns. -/
def own (k : Kind) (m : Nat) (l : Lock) : Nat := b2n (Owns k m (some l))

def Good (l : Lock) : Prop := l.owns = true → l.mutex ≠ none

theorem own_of_not_owns {k : Kind} {m : Nat} {l : Lock} (h : l.owns = false) : own k m l = 0 := by
  simp [own, Owns, h, b2n]

theorem own_of_no_mutex {k : Kind} {m : Nat} {l : Lock} (h : l.mutex = none) : own k m l = 0 := by
  simp [own, Owns, h, b2n]

theorem own_eq {k : Kind} {m : Nat} {l : Lock} {m' : Nat} (h : l.mutex = some m') (ho : l.owns = true) :
    own k m l = if l.kind = k ∧ m' = m then 1 else 0 := by
  simp only [own, Owns, h, ho, Bool.and_true, Option.some.injEq]
  by_cases h1 : l.kind = k <;> by_cases h2 : m' = m <;> simp [h1, h2, b2n]

/-- One object changes from `l` to `l'` with events `es`. -/
structure Change (l l' : Lock) (es : List Ev) : Prop where
  good : Good l'
  kind : l'.kind = l.kind
  noUb : Ev.ub ∉ es
  net : ∀ k m, (own k m l : Int) + net k m es = own k m l'

theorem Change.refl {l : Lock} (h : Good l) {es : List Ev} (hub : Ev.ub ∉ es) (hn : ∀ k m, Locks.net k m es = 0) : Change l l es :=
  ⟨h, rfl, hub, fun k m => by rw [hn, Int.add_zero]⟩

theorem doLock_change {l : Lock} (h : Good l) {a : Ans} {l' : Lock} {es : List Ev} (hs : doLock l a = some (l', es)) : Change l l' es := by
  unfold doLock at hs
  split at hs
  · cases hs; exact .refl h (by simp) (fun _ _ => rfl)
  · next m hm =>
    split at hs
    · cases hs; exact .refl h (by simp) (fun _ _ => rfl)
    · next ho =>
      split at hs
      · cases hs
        refine ⟨fun _ => by simp [hm], rfl, by simp, fun k n => ?_⟩
        rw [own_of_not_owns (by simpa using ho), own_eq (l := { l with owns := true }) (m' := m) hm rfl]
        simp only [Locks.net, total, mutexNet, userNet]
        split <;> rfl
      · cases hs
      · cases hs; exact .refl h (by simp) (fun _ _ => rfl)

theorem doTry_change {l : Lock} (h : Good l) {a : Ans} {l' : Lock} {es : List Ev} (hs : doTry l a = some (l', es)) : Change l l' es := by
  unfold doTry at hs
  split at hs
  · cases hs; exact .refl h (by simp) (fun _ _ => rfl)
  · next m hm =>
    split at hs
    · cases hs; exact .refl h (by simp) (fun _ _ => rfl)
    · next ho =>
      split at hs
      · cases hs
        refine ⟨fun _ => by simp [hm], rfl, by simp, fun k n => ?_⟩
        rw [own_of_not_owns (by simpa using ho), own_eq (l := { l with owns := true }) (m' := m) hm rfl]
        simp only [Locks.net, total, mutexNet, userNet]
        split <;> rfl
      · cases hs
        refine ⟨fun h => (by cases h), rfl, by simp, fun k n => ?_⟩
        rw [own_of_not_owns (by simpa using ho), own_of_not_owns rfl]
        rfl
      · cases hs; exact .refl h (by simp) (fun _ _ => rfl)

theorem doUnlock_change {l : Lock} (h : Good l) {a : Ans} {l' : Lock} {es : List Ev} (hs : doUnlock l a = some (l', es)) : Change l l' es := by
  unfold doUnlock at hs
  split at hs
  · cases hs; exact .refl h (by simp) (fun _ _ => rfl)
  · next m hm =>
    split at hs
    · cases hs; exact .refl h (by simp) (fun _ _ => rfl)
    · next ho =>
      split at hs
      · cases hs
        refine ⟨fun h => (by cases h), rfl, by simp, fun k n => ?_⟩
        rw [own_eq hm (by simpa using ho), own_of_not_owns rfl]
        simp only [Locks.net, total, mutexNet, userNet]
        split <;> rfl
      · cases hs
      · cases hs; exact .refl h (by simp) (fun _ _ => rfl)

/-- Destruction: everything owned is released. -/
theorem destroyed_net {l : Lock} (h : Good l) : Ev.ub ∉ destroyed l ∧ ∀ k m, (own k m l : Int) + net k m (destroyed l) = 0 := by
  unfold destroyed
  split
  · next ho =>
    split
    · next hm => exact absurd hm (h ho)
    · next m hm =>
      refine ⟨by simp, fun k n => ?_⟩
      rw [own_eq hm ho]
      simp only [Locks.net, total, mutexNet, userNet]
      split <;> rfl
  · next ho => exact ⟨by simp, fun k n => by rw [own_of_not_owns (by simpa using ho)]; rfl⟩

theorem emptied_own (k : Kind) (m : Nat) (l : Lock) : own k m (emptied l) = 0 := own_of_not_owns rfl

theorem emptied_good (l : Lock) : Good (emptied l) := fun h => by cases h

/-- Conversion: the ownership moves from the source to the new object. -/
theorem convert_net {mode : Mode} {k₂ : Kind} {l : Lock} (h : Good l) {a : Ans} {n : Option Lock} {l' : Lock} {es : List Ev}
    (hs : convert mode k₂ l a = some (n, l', es)) :
    Good l' ∧ l'.kind = l.kind ∧ (∀ x, n = some x → Good x ∧ x.kind = k₂) ∧ Ev.ub ∉ es ∧
    (∀ k m, (own k m l : Int) + net k m es = own k m l' + (match n with | some x => (own k m x : Int) | none => 0)) ∧
    (n = none → l' = l ∧ es = [.threw .fromMutex]) := by
  have main : ∀ {r : Option (Option Lock × Lock × List Ev)}, r = some (n, l', es) →
      (∀ m, l.owns = true → l.mutex = some m → (r = some (some ⟨k₂, some m, true⟩, emptied l, [.converted l.kind k₂ m]) ∨
        r = some (some ⟨k₂, none, false⟩, l, []) ∨ r = some (none, l, [.threw .fromMutex]))) →
      (l.owns = false → r = some (some ⟨k₂, l.mutex, false⟩, emptied l, [])) →
      Good l' ∧ l'.kind = l.kind ∧ (∀ x, n = some x → Good x ∧ x.kind = k₂) ∧ Ev.ub ∉ es ∧
      (∀ k m, (own k m l : Int) + net k m es = own k m l' + (match n with | some x => (own k m x : Int) | none => 0)) ∧
      (n = none → l' = l ∧ es = [.threw .fromMutex]) := by
    intro r hr h1 h2
    cases ho : l.owns with
    | false =>
      rw [h2 ho] at hr
      cases hr
      refine ⟨emptied_good l, rfl, ?_, by simp, fun k m => ?_, by simp⟩
      · intro x hx; cases hx; exact ⟨fun h => (by cases h), rfl⟩
      · rw [own_of_not_owns ho, emptied_own]; simp only; rw [own_of_not_owns rfl]; rfl
    | true =>
      obtain ⟨m, hm⟩ := Option.ne_none_iff_exists'.mp (h ho)
      rcases h1 m ho hm with hr' | hr' | hr' <;> rw [hr'] at hr <;> cases hr
      · refine ⟨emptied_good l, rfl, ?_, by simp, fun k n => ?_, by simp⟩
        · intro x hx; cases hx; exact ⟨fun _ => by simp, rfl⟩
        · rw [own_eq hm ho, emptied_own]
          simp only
          rw [own_eq (m' := m) rfl rfl]
          simp only [Locks.net, total, mutexNet, userNet]
          split <;> split <;> simp
      · refine ⟨h, rfl, ?_, by simp, fun k n => ?_, by simp⟩
        · intro x hx; cases hx; exact ⟨fun h => (by cases h), rfl⟩
        · simp only; rw [own_of_not_owns (l := ⟨k₂, none, false⟩) rfl]; simp [Locks.net, total]
      · refine ⟨h, rfl, by simp, by simp, fun k n => by simp [Locks.net, total, mutexNet, userNet], by simp⟩
  refine main hs ?_ ?_
  · intro m ho hm
    cases mode <;> simp only [convert, ho, hm, if_true] <;> cases a <;> simp
    all_goals
      simp [convert, ho, hm] at hs
  · intro ho
    cases mode <;> simp [convert, ho]

/-! ## Lists of objects -/

theorem owners_append (k : Kind) (m : Nat) (s : St) (l : Lock) : owners k m (s ++ [some l]) = owners k m s + own k m l := by
  unfold owners own
  rw [List.countP_append]
  cases h : Owns k m (some l) <;> simp [h, b2n]

theorem owners_set {k : Kind} {m : Nat} {s : St} {i : Nat} {l l' : Lock} (h : s[i]? = some (some l)) :
    owners k m (s.set i (some l')) + own k m l = owners k m s + own k m l' := by
  unfold owners own
  have := countP_set (p := Owns k m) (b := some l') h
  omega

theorem owners_set_none {k : Kind} {m : Nat} {s : St} {i : Nat} {l : Lock} (h : s[i]? = some (some l)) :
    owners k m (s.set i none) + own k m l = owners k m s := by
  unfold owners own
  have := countP_set (p := Owns k m) (b := none) h
  have e : b2n (Owns k m none) = 0 := rfl
  omega

/-- All objects are in order. -/
def AllGood (s : St) : Prop := ∀ (i : Nat) (l : Lock), s[i]? = some (some l) → Good l

theorem AllGood.append {s : St} (h : AllGood s) {l : Lock} (hl : Good l) : AllGood (s ++ [some l]) := by
  intro i x hx
  rw [List.getElem?_append] at hx
  split at hx
  · exact h i x hx
  · rw [List.getElem?_singleton] at hx
    split at hx
    · cases hx; exact hl
    · cases hx

theorem AllGood.set {s : St} (h : AllGood s) {i : Nat} {o : Option Lock} (hl : ∀ l, o = some l → Good l) : AllGood (s.set i o) := by
  intro j x hx
  rcases get_set_cases hx with ⟨_, hx⟩ | ⟨_, hx⟩
  · exact hl x hx.symm
  · exact h j x hx

theorem AllGood.nil : AllGood [] := fun i l h => by simp at h

/-- What one step does to the accounts. -/
structure Good' (s s' : St) (es : List Ev) : Prop where
  all : AllGood s'
  noUb : Ev.ub ∉ es
  net : ∀ k m, (owners k m s : Int) + net k m es = owners k m s'

theorem good_append {s : St} (h : AllGood s) {l : Lock} {es : List Ev} (hl : Good l) (hub : Ev.ub ∉ es)
    (hn : ∀ k m, net k m es = own k m l) : Good' s (s ++ [some l]) es :=
  ⟨h.append hl, hub, fun k m => by rw [owners_append, hn]; omega⟩

theorem good_refl {s : St} (h : AllGood s) {es : List Ev} (hub : Ev.ub ∉ es) (hn : ∀ k m, net k m es = 0) : Good' s s es :=
  ⟨h, hub, fun k m => by rw [hn]; omega⟩

theorem good_set {s : St} (h : AllGood s) {i : Nat} {l l' : Lock} {es : List Ev} (hi : s[i]? = some (some l))
    (hc : Change l l' es) : Good' s (s.set i (some l')) es :=
  ⟨h.set (fun x hx => by cases hx; exact hc.good), hc.noUb, fun k m => by
    have h1 := owners_set (k := k) (m := m) (l' := l') hi
    have h2 := hc.net k m
    omega⟩

theorem good_onObj {s : St} (h : AllGood s) {i : Nat} {f : Lock → Option (Lock × List Ev)}
    (hf : ∀ l l' es, Good l → f l = some (l', es) → Change l l' es) {s' : St} {es : List Ev}
    (hs : onObj s i f = some (s', es)) : Good' s s' es := by
  unfold onObj at hs
  split at hs
  · next l hi =>
    split at hs
    · cases hs
    · next l' es' hl => cases hs; exact good_set h hi (hf _ _ _ (h i l hi) hl)
  · cases hs

theorem good_constructed {s : St} (h : AllGood s) {k₀ : Kind} {m₀ : Nat} {r : Option (Lock × List Ev)}
    (hr : ∀ l' es, r = some (l', es) → Change ⟨k₀, some m₀, false⟩ l' es ∧
      ((∃ e ∈ es, ∃ x, e = .threw x) → ∀ k m, net k m es = 0)) {s' : St} {es : List Ev}
    (hs : constructed s r = some (s', es)) : Good' s s' es := by
  unfold constructed at hs
  split at hs
  · cases hs
  · next l es' =>
    obtain ⟨hc, hn⟩ := hr _ _ rfl
    split at hs
    · next hany =>
      cases hs
      refine good_refl h hc.noUb (hn ?_)
      obtain ⟨e, he, hx⟩ := List.any_eq_true.mp hany
      refine ⟨e, he, ?_⟩
      cases e <;> simp at hx
      exact ⟨_, rfl⟩
    · cases hs
      refine good_append h hc.good hc.noUb (fun k m => ?_)
      have := hc.net k m
      rw [own_of_not_owns rfl] at this
      omega

theorem doLock_threw {l : Lock} {a : Ans} {l' : Lock} {es : List Ev} (hs : doLock l a = some (l', es))
    (ht : ∃ e ∈ es, ∃ x, e = Ev.threw x) (k : Kind) (m : Nat) : net k m es = 0 := by
  obtain ⟨e, he, x, rfl⟩ := ht
  unfold doLock at hs
  split at hs
  · cases hs; rfl
  · split at hs
    · cases hs; rfl
    · split at hs <;> cases hs
      · simp at he
      · rfl

theorem doTry_threw {l : Lock} {a : Ans} {l' : Lock} {es : List Ev} (hs : doTry l a = some (l', es))
    (ht : ∃ e ∈ es, ∃ x, e = Ev.threw x) (k : Kind) (m : Nat) : net k m es = 0 := by
  obtain ⟨e, he, x, rfl⟩ := ht
  unfold doTry at hs
  split at hs
  · cases hs; rfl
  · split at hs
    · cases hs; rfl
    · split at hs <;> cases hs
      · simp at he
      · rfl
      · rfl

theorem set_self {s : St} {i : Nat} {o : Option Lock} (h : s[i]? = some o) : s.set i o = s := by
  apply List.ext_getElem?
  intro j
  rw [List.getElem?_set]
  split
  · next hij => subst hij; split
                · exact h.symm
                · next hlt => rw [List.getElem?_eq_none (by omega)] 
  · rfl

theorem good_swap {s : St} (h : AllGood s) {i j : Nat} {s' : St} {es : List Ev} (hs : swapObjs s i j = some (s', es)) : Good' s s' es := by
  unfold swapObjs at hs
  split at hs
  · next l l' hi hj =>
    split at hs
    · next hk =>
      cases hs
      have gi := h i l hi
      have gj := h j l' hj
      refine ⟨(h.set ?_).set ?_, by simp, fun k m => ?_⟩
      · intro x hx; cases hx; exact gj
      · intro x hx; cases hx; exact gi
      · have e1 : own k m { l with mutex := l'.mutex, owns := l'.owns } = own k m l' := by simp [own, Owns, hk]
        have e2 : own k m { l' with mutex := l.mutex, owns := l.owns } = own k m l := by simp [own, Owns, hk]
        have s1 := owners_set (k := k) (m := m) (l' := { l with mutex := l'.mutex, owns := l'.owns }) hi
        by_cases hij : i = j
        · subst hij
          rw [hi] at hj
          cases hj
          have e3 : (s.set i (some l)).set i (some l) = s := by
            rw [List.set_set]
            exact set_self hi
          show (owners k m s : Int) + net k m [] = owners k m ((s.set i (some l)).set i (some l))
          rw [net_nil, e3]; omega
        · have s2 := owners_set (k := k) (m := m) (l' := { l' with mutex := l.mutex, owns := l.owns })
            (s := s.set i (some { l with mutex := l'.mutex, owns := l'.owns })) ((get_set_ne (b := some { l with mutex := l'.mutex, owns := l'.owns }) hij).trans hj)
          rw [net_nil]; omega
    · cases hs
  · cases hs

theorem good_step {s s' : St} {op : Op} {a : Ans} {es : List Ev} (h : AllGood s) (hs : step s (op, a) = some (s', es)) : Good' s s' es := by
  cases op with
  | ctorDefault k => cases hs; exact good_append h (fun h => (by cases h)) (by simp) (fun _ _ => by rw [own_of_not_owns rfl]; rfl)
  | ctorDefer k m => cases hs; exact good_append h (fun h => (by cases h)) (by simp) (fun _ _ => by rw [own_of_not_owns rfl]; rfl)
  | ctorAdopt k m =>
    cases hs
    refine good_append h (fun _ => by simp) (by simp) (fun k' m' => ?_)
    rw [own_eq (m' := m) rfl rfl]
    simp only [net, total, mutexNet, userNet]
    split <;> rfl
  | ctorLock k m => exact good_constructed h (fun l' es hl => ⟨doLock_change (fun h => (by cases h)) hl, doLock_threw hl⟩) hs
  | ctorTry k m => exact good_constructed h (fun l' es hl => ⟨doTry_change (fun h => (by cases h)) hl, doTry_threw hl⟩) hs
  | ctorTimed k m => exact good_constructed h (fun l' es hl => ⟨doTry_change (fun h => (by cases h)) hl, doTry_threw hl⟩) hs
  | ctorMove j =>
    simp only [step] at hs
    split at hs
    · next l hj =>
      cases hs
      have gl := h j l hj
      refine ⟨(h.set (fun x hx => by cases hx; exact emptied_good l)).append gl, by simp, fun k m => ?_⟩
      rw [owners_append, net_nil]
      have := owners_set (k := k) (m := m) (l' := emptied l) hj
      rw [emptied_own] at this
      omega
    · cases hs
  | ctorConvert mode k j =>
    simp only [step] at hs
    split at hs
    · next l hj =>
      have gl := h j l hj
      split at hs
      · split at hs
        · cases hs
        · next l' es' hc =>
          cases hs
          obtain ⟨h1, h2, h3, h4, h5, h6⟩ := convert_net gl hc
          exact good_set h hj ⟨h1, h2, h4, fun k m => by rw [h5 k m]; simp⟩
        · next n l' es' hc =>
          cases hs
          obtain ⟨h1, h2, h3, h4, h5, h6⟩ := convert_net gl hc
          refine ⟨(h.set (fun x hx => by cases hx; exact h1)).append (h3 n rfl).1, h4, fun k m => ?_⟩
          rw [owners_append]
          have e1 := owners_set (k := k) (m := m) (l' := l') hj
          have e2 := h5 k m
          simp only at e2
          omega
      · cases hs
    · cases hs
  | destroy i =>
    simp only [step] at hs
    split at hs
    · next l hi =>
      cases hs
      have gl := h i l hi
      obtain ⟨h1, h2⟩ := destroyed_net gl
      refine ⟨h.set (fun x hx => by cases hx), h1, fun k m => ?_⟩
      have e1 := owners_set_none (k := k) (m := m) hi
      have e2 := h2 k m
      omega
    · cases hs
  | lock i => exact good_onObj h (fun _ _ _ g hl => doLock_change g hl) hs
  | tryLock i => exact good_onObj h (fun _ _ _ g hl => doTry_change g hl) hs
  | timedLock i => exact good_onObj h (fun _ _ _ g hl => doTry_change g hl) hs
  | unlock i => exact good_onObj h (fun _ _ _ g hl => doUnlock_change g hl) hs
  | release i =>
    simp only [step] at hs
    refine good_onObj h ?_ hs
    intro l l' es g hl
    cases hl
    refine ⟨emptied_good l, rfl, ?_, fun k m => ?_⟩
    · split <;> simp
    · rw [emptied_own, net_append]
      have e0 : net k m [Ev.retMutex l.mutex] = 0 := rfl
      split
      · next m' ho hm =>
        rw [own_eq hm ho, e0]
        simp only [net, total, mutexNet, userNet]
        split <;> rfl
      · next hno =>
        have : own k m l = 0 := by
          cases ho : l.owns with
          | false => exact own_of_not_owns ho
          | true =>
            obtain ⟨m', hm⟩ := Option.ne_none_iff_exists'.mp (g ho)
            exact absurd hm (hno m' ho)
        rw [this, e0]; rfl
  | swap i j => exact good_swap h hs
  | moveAssign i j => exact good_swap h hs
  | convertAssign i j =>
    simp only [step] at hs
    split at hs
    · next old l hi hj =>
      have gi := h i old hi
      have gl := h j l hj
      split at hs
      · next hconv =>
        have hij : i ≠ j := by
          rintro rfl
          rw [hi] at hj
          cases hj
          cases hk : old.kind <;> simp [hk, convertible] at hconv
        split at hs
        · cases hs
        · next l' es' hc =>
          cases hs
          obtain ⟨h1, h2, h3, h4, h5, h6⟩ := convert_net gl hc
          exact good_set h hj ⟨h1, h2, h4, fun k m => by rw [h5 k m]; simp⟩
        · next n l' es' hc =>
          cases hs
          obtain ⟨h1, h2, h3, h4, h5, h6⟩ := convert_net gl hc
          obtain ⟨d1, d2⟩ := destroyed_net gi
          refine ⟨(h.set (fun x hx => by cases hx; exact h1)).set (fun x hx => by cases hx; exact (h3 n rfl).1), ?_, fun k m => ?_⟩
          · simp only [List.mem_append, not_or]; exact ⟨h4, d1⟩
          · rw [net_append]
            have e1 := owners_set (k := k) (m := m) (l' := l') hj
            have e2 := owners_set (k := k) (m := m) (l' := n) (s := s.set j (some l')) (i := i) (l := old) ((get_set_ne (Ne.symm hij)).trans hi)
            have e3 := h5 k m
            have e4 := d2 k m
            simp only at e3
            omega
      · cases hs
    · cases hs
  | ownsLock i =>
    simp only [step] at hs
    exact good_onObj h (fun l l' es g hl => by cases hl; exact .refl g (by simp) (fun _ _ => rfl)) hs
  | mutex i =>
    simp only [step] at hs
    exact good_onObj h (fun l l' es g hl => by cases hl; exact .refl g (by simp) (fun _ _ => rfl)) hs

theorem inv_exec {tr : List Ev} {s : St} (h : Exec step [] tr s) :
    AllGood s ∧ Ev.ub ∉ tr ∧ ∀ k m, net k m tr = owners k m s := by
  refine h.invariant (fun tr s => AllGood s ∧ Ev.ub ∉ tr ∧ ∀ k m, net k m tr = owners k m s) ⟨.nil, by simp, fun _ _ => rfl⟩ ?_
  rintro tr s ⟨op, a⟩ s' es ⟨h1, h2, h3⟩ hs
  have g := good_step h1 hs
  refine ⟨g.all, ?_, fun k m => ?_⟩
  · simp only [List.mem_append, not_or]; exact ⟨h2, g.noUb⟩
  · rw [net_append, h3]; exact g.net k m

end Verif.Locks
