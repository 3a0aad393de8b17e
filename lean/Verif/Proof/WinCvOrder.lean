import Verif.Spec.WinCvOrder
import Verif.Proof.WinCondVarTerm

/-! # Stale values of the waiter count: invariants -/

namespace Verif.WinCvOrder

open WinCv (PC)

/-! ## Happens-before -/

theorem Before.le {tr : List Ev} {i j : Nat} (h : Before tr i j) : i ≤ j := by
  induction h with
  | refl => exact Nat.le_refl _
  | tail _ he ih => have := he.1; omega

theorem Before.old {tr : List Ev} {e : Ev} {i j : Nat} (h : Before (tr ++ [e]) i j) (hj : j < tr.length) : Before tr i j := by
  induction h with
  | refl => exact .refl _
  | @tail j k h he ih =>
    obtain ⟨hlt, a, b, ha, hb, hc⟩ := he
    refine .tail (ih (by omega)) ⟨hlt, a, b, ?_, ?_, hc⟩
    · rwa [List.getElem?_append_left (by omega)] at ha
    · rwa [List.getElem?_append_left hj] at hb

theorem Before.new {tr : List Ev} {e : Ev} {i : Nat} (h : Before (tr ++ [e]) i tr.length) :
    i = tr.length ∨ ∃ j, Before tr i j ∧ Edge (tr ++ [e]) j tr.length := by
  generalize hk : tr.length = k at h
  cases h with
  | refl => exact .inl rfl
  | @tail j k h he =>
    subst hk
    exact .inr ⟨j, h.old he.1, he⟩

/-- Number of writes. -/
def nw (tr : List Ev) : Nat := tr.countP fun | .wrote _ _ => true | _ => false

theorem nw_append (a b : List Ev) : nw (a ++ b) = nw a + nw b := List.countP_append

/-- The place of the `i`-th event among the writes. -/
def rank (tr : List Ev) (i : Nat) : Nat := nw (tr.take (i + 1))

theorem rank_le (tr : List Ev) (i : Nat) : rank tr i ≤ nw tr := by
  unfold rank
  have := nw_append (tr.take (i + 1)) (tr.drop (i + 1))
  rw [List.take_append_drop] at this
  omega

theorem rank_old {tr : List Ev} {e : Ev} {i : Nat} (h : i < tr.length) : rank (tr ++ [e]) i = rank tr i := by
  unfold rank
  rw [List.take_append_of_le_length (by omega)]

/-- A write that is not among the first `k` events comes after the writes among them. -/
theorem rank_beyond {tr₁ tr₂ : List Ev} {i : Nat} (hw : IsWrite (tr₁ ++ tr₂) i) (hi : tr₁.length ≤ i) : nw tr₁ < rank (tr₁ ++ tr₂) i := by
  obtain ⟨u, v, hw⟩ := hw
  unfold rank
  rw [List.getElem?_append_right hi] at hw
  have hl : i - tr₁.length < tr₂.length := (List.getElem?_eq_some_iff.mp hw).1
  rw [List.take_append, List.take_of_length_le (by omega), nw_append, show i + 1 - tr₁.length = (i - tr₁.length) + 1 by omega,
    List.take_add_one, hw]
  simp [nw]

/-! ## What is known -/

/-- The threads and those who lock know at least of the writes that happen before. -/
structure Knows (tr : List Ev) (k : Know) : Prop where
  seen : ∀ i t, IsWrite tr i → Seen tr i t → rank tr i ≤ k.of t
  locks : ∀ i j t l, tr[j]? = some (.rel t l) → Before tr i j → IsWrite tr i → rank tr i ≤ k.at l
  threads : ∀ e ∈ tr, e.thread < k.pos.length
  len : k.hist.length = nw tr + 1

theorem of_set {k : Know} {t x : Nat} (ht : t < k.pos.length) (u : Nat) :
    ({ k with pos := k.pos.set t x } : Know).of u = if t = u then x else k.of u := by
  simp only [Know.of, List.getD_eq_getElem?_getD, List.getElem?_set]
  by_cases h : t = u
  · subst h; simp [ht]
  · simp [h]

theorem of_beyond {k : Know} {t : Nat} (h : k.pos.length ≤ t) : k.of t = 0 := by
  simp [Know.of, List.getD_eq_getElem?_getD, List.getElem?_eq_none h]

theorem learn_len (k : Know) (e : Ev) : (k.learn e).pos.length = k.pos.length := by
  cases e <;> simp only [Know.learn, List.length_set]
  next t l => cases l <;> rfl

theorem learn_hist {k : Know} {e : Ev} (h : ∀ t v, e ≠ .wrote t v) : (k.learn e).hist = k.hist := by
  cases e <;> try rfl
  · exact absurd rfl (h _ _)
  next t l => cases l <;> rfl

theorem learn_of_le {k : Know} {e : Ev} (hb : ∀ t, k.of t ≤ k.hist.length) (ht : e.thread < k.pos.length) (u : Nat) :
    k.of u ≤ (k.learn e).of u := by
  cases e with
  | ev => exact Nat.le_refl _
  | wrote t v => 
    show _ ≤ ({ k with pos := k.pos.set t k.hist.length } : Know).of u
    rw [of_set (t := t) ht]; split
    · exact hb u
    · exact Nat.le_refl _
  | acq t l =>
    show _ ≤ ({ k with pos := k.pos.set t _ } : Know).of u
    rw [of_set (t := t) ht]; split
    · next h => subst h; omega
    · exact Nat.le_refl _
  | rel t l => cases l <;> exact Nat.le_refl _
  | sync t w =>
    show _ ≤ ({ k with pos := k.pos.set t _ } : Know).of u
    rw [of_set (t := t) ht]; split
    · next h => subst h; omega
    · exact Nat.le_refl _

theorem learn_at_le (k : Know) (e : Ev) (l : Lk) : k.at l ≤ (k.learn e).at l := by
  cases e with
  | rel t m => cases m <;> cases l <;> simp only [Know.learn, Know.at] <;> omega
  | _ => cases l <;> exact Nat.le_refl _

theorem write_old {tr : List Ev} {e : Ev} {i : Nat} (h : i < tr.length) : IsWrite (tr ++ [e]) i ↔ IsWrite tr i := by
  unfold IsWrite
  rw [List.getElem?_append_left h]

theorem write_lt {tr : List Ev} {i : Nat} (h : IsWrite tr i) : i < tr.length := by
  obtain ⟨_, _, h⟩ := h
  exact (List.getElem?_eq_some_iff.mp h).1

theorem knows_learn {tr : List Ev} {k : Know} {e : Ev} (h : Knows tr k) (ht : e.thread < k.pos.length)
    (hb : ∀ t, k.of t ≤ k.hist.length) : Knows (tr ++ [e]) (k.learn e) where
  seen i t hw hs := by
    obtain ⟨j, x, hx, hxt, hbef⟩ := hs
    have hiL := hbef.le
    have hjL := (List.getElem?_eq_some_iff.mp hx).1
    simp only [List.length_append, List.length_singleton] at hjL
    by_cases hj : j < tr.length
    · rw [List.getElem?_append_left hj] at hx
      rw [rank_old (by omega)]
      rw [write_old (by omega)] at hw
      exact Nat.le_trans (h.seen i t hw ⟨j, x, hx, hxt, hbef.old hj⟩) (learn_of_le hb ht t)
    · have hj : j = tr.length := by omega
      subst hj
      rw [List.getElem?_concat_length] at hx
      cases hx
      rcases hbef.new with rfl | ⟨j', hb', he⟩
      · -- the event itself is a write
        obtain ⟨u, v, hw⟩ := hw
        rw [List.getElem?_concat_length] at hw
        cases hw
        subst hxt
        show _ ≤ ({ k with pos := k.pos.set u k.hist.length } : Know).of u
        rw [of_set (t := u) ht, if_pos rfl, h.len]
        have := rank_le (tr ++ [.wrote u v]) tr.length
        simp only [nw_append] at this
        simpa [nw] using this
      · have hij := hb'.le
        obtain ⟨hlt, a, b, ha, hb2, hc⟩ := he
        rw [rank_old (by omega)]
        rw [write_old (by omega)] at hw
        rw [List.getElem?_append_left hlt] at ha
        rw [List.getElem?_concat_length] at hb2
        cases hb2
        rcases hc with hc | ⟨t', u, l, rfl, rfl⟩ | ⟨t', rfl⟩
        · exact Nat.le_trans (h.seen i t hw ⟨j', a, ha, hc.trans hxt, hb'⟩) (learn_of_le hb ht t)
        · have := h.locks i j' t' l ha hb' hw
          cases hxt
          show _ ≤ ({ k with pos := k.pos.set u _ } : Know).of u
          rw [of_set (t := u) ht, if_pos rfl]; omega
        · have := h.seen i a.thread hw ⟨j', a, ha, rfl, hb'⟩
          cases hxt
          show _ ≤ ({ k with pos := k.pos.set t' _ } : Know).of t'
          rw [of_set (t := t') ht, if_pos rfl]; omega
  locks i j t l hr hbef hw := by
    have hiL := hbef.le
    have hjL := (List.getElem?_eq_some_iff.mp hr).1
    simp only [List.length_append, List.length_singleton] at hjL
    by_cases hj : j < tr.length
    · rw [List.getElem?_append_left hj] at hr
      rw [rank_old (by omega)]
      rw [write_old (by omega)] at hw
      exact Nat.le_trans (h.locks i j t l hr (hbef.old hj) hw) (learn_at_le k e l)
    · have hj : j = tr.length := by omega
      subst hj
      rw [List.getElem?_concat_length] at hr
      cases hr
      rcases hbef.new with rfl | ⟨j', hb', he⟩
      · obtain ⟨u, v, hw⟩ := hw
        rw [List.getElem?_concat_length] at hw
        cases hw
      · have hij := hb'.le
        obtain ⟨hlt, a, b, ha, hb2, hc⟩ := he
        rw [rank_old (by omega)]
        rw [write_old (by omega)] at hw
        rw [List.getElem?_append_left hlt] at ha
        rw [List.getElem?_concat_length] at hb2
        cases hb2
        rcases hc with hc | ⟨t', u, l', rfl, hx⟩ | ⟨t', hx⟩
        · have := h.seen i t hw ⟨j', a, ha, hc, hb'⟩
          cases l <;> simp only [Know.learn, Know.at] <;> omega
        · cases hx
        · cases hx
  threads x hx := by
    rw [learn_len]
    rcases List.mem_append.mp hx with hx | hx
    · exact h.threads x hx
    · cases List.mem_singleton.mp hx; exact ht
  len := by
    rw [nw_append]
    cases e with
    | wrote t v => simp [Know.learn, h.len, nw]
    | rel t l => cases l <;> simp [Know.learn, h.len, nw]
    | _ => simp [Know.learn, h.len, nw]

/-- Knowing more. -/
theorem knows_more {tr : List Ev} {k : Know} {t i : Nat} (h : Knows tr k) (ht : t < k.pos.length) (hi : k.of t ≤ i) :
    Knows tr { k with pos := k.pos.set t i } where
  seen j u hw hs := by
    rw [of_set ht]
    have := h.seen j u hw hs
    split
    · next h => subst h; omega
    · exact this
  locks j j' u l h1 h2 h3 := by
    have := h.locks j j' u l h1 h2 h3
    cases l <;> exact this
  threads e he := by simpa using h.threads e he
  len := h.len

/-! ## Who holds the internal mutex knows the newest value -/

structure Newest (o : Option Nat) (k : Know) : Prop where
  hist : 0 < k.hist.length
  bound : ∀ t, k.of t < k.hist.length
  inside : k.inside < k.hist.length
  user : k.user < k.hist.length
  own : ∀ t, o = some t → k.of t + 1 = k.hist.length
  free : o = none → k.inside + 1 = k.hist.length

theorem newest_raise {o : Option Nat} {k : Know} (h : Newest o k) {t x : Nat} (ht : t < k.pos.length) (hx : k.of t ≤ x)
    (hl : x < k.hist.length) : Newest o { k with pos := k.pos.set t x } where
  hist := h.hist
  bound u := by rw [of_set ht]; split; exact hl; exact h.bound u
  inside := h.inside
  user := h.user
  own u hu := by
    rw [of_set ht]
    have := h.own u hu
    split
    · next h => subst h; show _ = k.hist.length; omega
    · exact this
  free := h.free

theorem at_lt {o : Option Nat} {k : Know} (h : Newest o k) (l : Lk) : k.at l < k.hist.length := by
  cases l
  · exact h.inside
  · exact h.user

theorem newest_acq {k : Know} (h : Newest none k) {t : Nat} (ht : t < k.pos.length) : Newest (some t) (k.learn (.acq t .internal)) where
  hist := h.hist
  bound u := by
    show ({ k with pos := k.pos.set t _ } : Know).of u < k.hist.length
    rw [of_set ht]
    have := h.bound t; have := h.inside
    split
    · simp only [Know.at]; omega
    · exact h.bound u
  inside := h.inside
  user := h.user
  own u hu := by
    cases hu
    show ({ k with pos := k.pos.set t _ } : Know).of t + 1 = k.hist.length
    rw [of_set ht, if_pos rfl]
    have := h.bound t; have := h.free rfl
    simp only [Know.at]; omega
  free hu := by cases hu

theorem newest_wrote {k : Know} {t v : Nat} (h : Newest (some t) k) (ht : t < k.pos.length) : Newest (some t) (k.learn (.wrote t v)) := by
  have hl : (k.learn (.wrote t v)).hist.length = k.hist.length + 1 := by simp [Know.learn]
  have ho : ∀ u, (k.learn (.wrote t v)).of u = if t = u then k.hist.length else k.of u := fun u => of_set ht u
  refine ⟨by omega, ?_, ?_, ?_, ?_, fun hu => by cases hu⟩
  · intro u
    rw [ho, hl]
    have := h.bound u
    split <;> omega
  · have := h.inside; rw [hl]; show k.inside < _; omega
  · have := h.user; rw [hl]; show k.user < _; omega
  · intro u hu; cases hu; rw [ho, hl, if_pos rfl]

theorem newest_rel {k : Know} {t : Nat} (h : Newest (some t) k) : Newest none (k.learn (.rel t .internal)) where
  hist := h.hist
  bound := h.bound
  inside := by
    show max k.inside (k.of t) < k.hist.length
    have := h.inside; have := h.bound t; omega
  user := h.user
  own u hu := by cases hu
  free _ := by
    show max k.inside (k.of t) + 1 = k.hist.length
    have := h.inside; have := h.own t rfl; omega

theorem newest_relUser {o : Option Nat} {k : Know} {t : Nat} (h : Newest o k) : Newest o (k.learn (.rel t .user)) where
  hist := h.hist
  bound := h.bound
  inside := h.inside
  user := by
    show max k.user (k.of t) < k.hist.length
    have := h.user; have := h.bound t; omega
  own := h.own
  free := h.free

/-! ## The steps -/

theorem step_writes {s b : WinCv.St} {t : Nat} {pc : PC} {es : List WinCv.Ev} (ht : s.ths[t]? = some pc) (h : WinCv.Step s t b es) :
    (writes pc es = false → b.total = s.total) ∧ (writes pc es = true → pc.holds = true) := by
  cases h with
  | userLock h hu => exact ⟨fun _ => rfl, fun hw => by rw [ht] at h; cases h; cases hw⟩
  | userUnlock h hu => exact ⟨fun _ => rfl, fun hw => by rw [ht] at h; cases h; cases hw⟩
  | goto h hg => refine ⟨fun _ => rfl, fun hw => ?_⟩; rw [ht] at h; cases h; cases hg <;> cases hw
  | enter h hg ho => refine ⟨fun _ => rfl, fun hw => ?_⟩; rw [ht] at h; cases h; cases hg <;> cases hw
  | exit h hg => refine ⟨fun _ => rfl, fun hw => ?_⟩; rw [ht] at h; cases h; cases hg <;> cases hw
  | first h hn => rw [ht] at h; cases h; exact ⟨(fun hw => by cases hw), fun _ => rfl⟩
  | join h hx hn hw => rw [ht] at h; cases h; exact ⟨(fun hw => by cases hw), fun _ => rfl⟩
  | advance h hx hn he => exact ⟨fun _ => rfl, fun _ => by rw [ht] at h; cases h; rfl⟩
  | around h hx hn he => exact ⟨fun _ => rfl, fun _ => by rw [ht] at h; cases h; rfl⟩
  | create h hx => rw [ht] at h; cases h; exact ⟨(fun hw => by cases hw), fun _ => rfl⟩
  | unlock h => exact ⟨fun _ => rfl, fun hw => by rw [ht] at h; cases h; cases hw⟩
  | token h hx hp => exact ⟨fun _ => rfl, fun hw => by rw [ht] at h; cases h; cases hw⟩
  | leave h hl hx hn => refine ⟨fun _ => rfl, fun hw => ?_⟩; rw [ht] at h; cases h; cases hl <;> rfl
  | leave0 h hl hx hn =>
    rw [ht] at h; cases h
    cases hl <;> exact ⟨(fun hw => by cases hw), fun _ => rfl⟩
  | relock h hu => exact ⟨fun _ => rfl, fun hw => by rw [ht] at h; cases h; cases hw⟩
  | decide0 h h0 => exact ⟨fun _ => rfl, fun _ => by rw [ht] at h; cases h; rfl⟩
  | decide h h0 hc =>
    rw [ht] at h; cases h
    refine ⟨fun hw => ?_, fun _ => rfl⟩
    simp only [writes, bne_eq_false_iff_eq] at hw
    show _ - _ = _
    omega
  | wakeLast h hx hm hc => exact ⟨fun _ => rfl, fun _ => by rw [ht] at h; cases h; rfl⟩
  | wakeNext h hx hm hc => exact ⟨fun _ => rfl, fun _ => by rw [ht] at h; cases h; rfl⟩

theorem step_owner {s b : WinCv.St} {t : Nat} {es : List WinCv.Ev} (hl : WinCv.Locks s) (h : WinCv.Step s t b es) :
    b.owner = s.owner ∨ (s.owner = none ∧ b.owner = some t) ∨ (s.owner = some t ∧ b.owner = none) := by
  cases h with
  | enter h hg ho => exact .inr (.inl ⟨ho, rfl⟩)
  | exit h hg => exact .inr (.inr ⟨hl.own _ _ h (by cases hg <;> rfl), rfl⟩)
  | leave h hg hx hn => exact .inr (.inr ⟨hl.own _ _ h (by cases hg <;> rfl), rfl⟩)
  | leave0 h hg hx hn => exact .inr (.inr ⟨hl.own _ _ h (by cases hg <;> rfl), rfl⟩)
  | _ => exact .inl rfl

theorem step_thread {s b : WinCv.St} {t : Nat} {es : List WinCv.Ev} (h : WinCv.Step s t b es) : ∃ pc, s.ths[t]? = some pc := by
  cases h <;> exact ⟨_, ‹s.ths[t]? = some _›⟩

/-- The number of writes among the events of a step. -/
theorem nw_evs (t : Nat) (es : List WinCv.Ev) : nw (es.map (Ev.ev t)) = 0 := by
  induction es with
  | nil => rfl
  | cons e es ih => simp [nw]

theorem nw_events {t : Nat} {pc : PC} {s b : WinCv.St} {es : List WinCv.Ev} :
    nw (events t pc s b es) = if writes pc es then 1 else 0 := by
  unfold events
  simp only [nw_append, nw_evs]
  split <;> split <;> split <;> split <;> split <;> rfl

theorem plain_append (a b : List Ev) : plain (a ++ b) = plain a ++ plain b := by simp [plain]

theorem plain_evs (t : Nat) (es : List WinCv.Ev) : plain (es.map (Ev.ev t)) = es := by
  induction es with
  | nil => rfl
  | cons e es ih => simp only [plain] at ih; simp [plain, ih]

theorem plain_events {t : Nat} {pc : PC} {s b : WinCv.St} {es : List WinCv.Ev} : plain (events t pc s b es) = es := by
  unfold events
  simp only [plain_append, plain_evs]
  have h1 : ∀ (p : Prop) [Decidable p] (e : Ev), (plain [e] = []) → plain (if p then [e] else []) = [] := by
    intro p _ e he; split; exact he; rfl
  rw [h1 _ _ rfl, h1 _ _ rfl, h1 _ _ rfl, h1 _ _ rfl]
  split <;> simp [plain]

theorem events_thread {t : Nat} {pc : PC} {s b : WinCv.St} {es : List WinCv.Ev} : ∀ e ∈ events t pc s b es, e.thread = t := by
  intro e he
  unfold events at he
  simp only [List.mem_append] at he
  have h1 : ∀ (p : Prop) [Decidable p] (x : Ev), x.thread = t → e ∈ (if p then [x] else []) → e.thread = t := by
    intro p _ x hx h
    split at h
    · cases List.mem_singleton.mp h; exact hx
    · cases h
  rcases he with ((((he | he) | he) | he) | he) | he
  · exact h1 _ _ rfl he
  · exact h1 _ _ rfl he
  · exact h1 _ _ rfl he
  · obtain ⟨x, _, rfl⟩ := List.mem_map.mp he; rfl
  · exact h1 _ _ rfl he
  · exact h1 _ _ rfl he

theorem fold_evs (t : Nat) (es : List WinCv.Ev) (k : Know) : (es.map (Ev.ev t)).foldl Know.learn k = k := by
  induction es with
  | nil => rfl
  | cons e es ih => simpa [Know.learn] using ih

/-- What is known, and who holds the internal mutex. -/
structure Ok (n : Nat) (o : Option Nat) (tr : List Ev) (k : Know) : Prop where
  knows : Knows tr k
  newest : Newest o k
  len : k.pos.length = n

theorem Ok.learn {n : Nat} {o o' : Option Nat} {tr : List Ev} {k : Know} {e : Ev} (h : Ok n o tr k) (ht : e.thread < n)
    (hn : Newest o' (k.learn e)) : Ok n o' (tr ++ [e]) (k.learn e) :=
  ⟨knows_learn h.knows (by rw [h.len]; exact ht) (fun t => Nat.le_of_lt (h.newest.bound t)), hn, by rw [learn_len, h.len]⟩

theorem Ok.evs {n : Nat} {o : Option Nat} {tr : List Ev} {k : Know} {t : Nat} (h : Ok n o tr k) (ht : t < n) (es : List WinCv.Ev) :
    Ok n o (tr ++ es.map (Ev.ev t)) k := by
  induction es generalizing tr with
  | nil => simpa using h
  | cons e es ih =>
    have := ih (h.learn (e := .ev t e) ht h.newest)
    simpa using this

theorem ok_events {n : Nat} {tr : List Ev} {k : Know} {s b : WinCv.St} {t : Nat} {pc : PC} {es : List WinCv.Ev}
    (hl : WinCv.Locks s) (ht : s.ths[t]? = some pc) (htn : t < n) (hs : WinCv.Step s t b es) (h : Ok n s.owner tr k) :
    Ok n b.owner (tr ++ events t pc s b es) ((events t pc s b es).foldl Know.learn k) ∧
    ((events t pc s b es).foldl Know.learn k).hist = k.hist ++ (if writes pc es then [b.total] else []) := by
  have how := step_owner hl hs
  have hwr := (step_writes ht hs).2
  unfold events
  simp only [← List.append_assoc, List.foldl_append]
  -- locking the internal mutex
  have h1 : ∃ o, (o = if s.owner ≠ some t ∧ b.owner = some t then some t else s.owner) ∧
      Ok n o (tr ++ (if s.owner ≠ some t ∧ b.owner = some t then [.acq t .internal] else []))
        ((if s.owner ≠ some t ∧ b.owner = some t then [Ev.acq t .internal] else []).foldl Know.learn k) ∧
      ((if s.owner ≠ some t ∧ b.owner = some t then [Ev.acq t .internal] else []).foldl Know.learn k).hist = k.hist := by
    refine ⟨_, rfl, ?_⟩
    split
    · next hc =>
      have ho : s.owner = none := by
        rcases how with h1 | ⟨h1, _⟩ | ⟨h1, _⟩
        · rw [h1] at hc; exact absurd hc.2 hc.1
        · exact h1
        · exact absurd h1 hc.1
      rw [ho] at h
      exact ⟨h.learn htn (newest_acq h.newest (by rw [h.len]; exact htn)), rfl⟩
    · exact ⟨by simpa using h, rfl⟩
  obtain ⟨o, ho, h1, hh1⟩ := h1
  generalize tr ++ (if s.owner ≠ some t ∧ b.owner = some t then [Ev.acq t .internal] else []) = tr1 at h1 ⊢
  generalize (if s.owner ≠ some t ∧ b.owner = some t then [Ev.acq t .internal] else []).foldl Know.learn k = k1 at h1 hh1 ⊢
  rw [← hh1]
  -- locking the user's lock
  have h2 : Ok n o (tr1 ++ (if s.user ≠ some t ∧ b.user = some t then [.acq t .user] else []))
        ((if s.user ≠ some t ∧ b.user = some t then [Ev.acq t .user] else []).foldl Know.learn k1) ∧
      ((if s.user ≠ some t ∧ b.user = some t then [Ev.acq t .user] else []).foldl Know.learn k1).hist = k1.hist := by
    split
    · have := h1.newest.bound t
      have := h1.newest.user
      exact ⟨h1.learn htn (newest_raise h1.newest (by rw [h1.len]; exact htn) (by omega) (by simp only [Know.at]; omega)), rfl⟩
    · exact ⟨by simpa using h1, rfl⟩
  obtain ⟨h2, hh2⟩ := h2
  generalize tr1 ++ (if s.user ≠ some t ∧ b.user = some t then [Ev.acq t .user] else []) = tr2 at h2 ⊢
  generalize (if s.user ≠ some t ∧ b.user = some t then [Ev.acq t .user] else []).foldl Know.learn k1 = k2 at h2 hh2 ⊢
  rw [← hh2]
  -- the write
  have h3 : Ok n o (tr2 ++ (if writes pc es then [.wrote t b.total] else []))
        ((if writes pc es then [Ev.wrote t b.total] else []).foldl Know.learn k2) ∧
      ((if writes pc es then [Ev.wrote t b.total] else []).foldl Know.learn k2).hist = k2.hist ++ (if writes pc es then [b.total] else []) := by
    split
    · next hw =>
      have hot := hl.own t pc ht (hwr hw)
      have : o = some t := by rw [ho, hot]; simp
      subst this
      exact ⟨h2.learn htn (newest_wrote h2.newest (by rw [h2.len]; exact htn)), rfl⟩
    · exact ⟨by simpa using h2, by simp⟩
  obtain ⟨h3, hh3⟩ := h3
  generalize tr2 ++ (if writes pc es then [Ev.wrote t b.total] else []) = tr3 at h3 ⊢
  generalize (if writes pc es then [Ev.wrote t b.total] else []).foldl Know.learn k2 = k3 at h3 hh3 ⊢
  rw [← hh3, fold_evs]
  have h4 := h3.evs htn es
  generalize tr3 ++ es.map (Ev.ev t) = tr4 at h4 ⊢
  -- unlocking the internal mutex
  have h5 : Ok n b.owner (tr4 ++ (if s.owner = some t ∧ b.owner ≠ some t then [.rel t .internal] else []))
        ((if s.owner = some t ∧ b.owner ≠ some t then [Ev.rel t .internal] else []).foldl Know.learn k3) ∧
      ((if s.owner = some t ∧ b.owner ≠ some t then [Ev.rel t .internal] else []).foldl Know.learn k3).hist = k3.hist := by
    split
    · next hc =>
      have hb : b.owner = none := by
        rcases how with h1 | ⟨h1, _⟩ | ⟨_, h1⟩
        · rw [h1] at hc; exact absurd hc.1 hc.2
        · rw [h1] at hc; exact absurd hc.1 (by simp)
        · exact h1
      have : o = some t := by rw [ho, hc.1]; simp
      subst this
      rw [hb]
      exact ⟨h4.learn htn (newest_rel h4.newest), rfl⟩
    · next hc =>
      have : o = b.owner := by
        rw [ho]
        rcases how with h1 | ⟨h1, h2⟩ | ⟨h1, h2⟩
        · rw [h1]
          split
          · next hx => exact absurd hx.2 hx.1
          · rfl
        · rw [h1, h2]; simp
        · exact absurd ⟨h1, by rw [h2]; simp⟩ hc
      subst this
      exact ⟨by simpa using h4, rfl⟩
  obtain ⟨h5, hh5⟩ := h5
  generalize tr4 ++ (if s.owner = some t ∧ b.owner ≠ some t then [Ev.rel t .internal] else []) = tr5 at h5 ⊢
  generalize (if s.owner = some t ∧ b.owner ≠ some t then [Ev.rel t .internal] else []).foldl Know.learn k3 = k5 at h5 hh5 ⊢
  rw [← hh5]
  split
  · exact ⟨h5.learn htn (newest_relUser h5.newest), rfl⟩
  · exact ⟨by simpa using h5, rfl⟩

structure Inv (n : Nat) (tr : List Ev) (s : St) : Prop where
  locks : WinCv.Locks s.base
  counts : WinCv.Counts s.base
  ring : WinCv.Ring s.base
  stamps : WinCv.Stamps (plain tr) s.base
  grants : WinCv.Grants (plain tr) s.base
  threads : s.base.ths.length = n
  ok : Ok n s.base.owner tr s.know
  last : s.know.hist.getLast? = some s.base.total

/-- A load while the internal mutex is held reads the newest value. -/
theorem newest_value {n : Nat} {tr : List Ev} {s : St} (h : Inv n tr s) {t i v : Nat} {pc : PC} (ht : s.base.ths[t]? = some pc)
    (hh : pc.holds = true) (hi : s.know.of t ≤ i) (hv : s.know.hist[i]? = some v) : v = s.base.total := by
  have h1 := h.ok.newest.own t (h.locks.own t pc ht hh)
  have h2 := (List.getElem?_eq_some_iff.mp hv).1
  have h3 : i = s.know.hist.length - 1 := by omega
  have h4 := h.last
  rw [List.getLast?_eq_getElem?, ← h3, hv] at h4
  cases h4; rfl

/-- Every step is a step of the condition variable, or one by the user. -/
inductive StepO (s : St) (t : Nat) : St → List Ev → Prop
  | op {pc b es k} (ht : s.base.ths[t]? = some pc) (hs : WinCv.Step s.base t b es)
      (hk : k = s.know ∨ ∃ i, s.know.of t ≤ i ∧ i < s.know.hist.length ∧ k = { s.know with pos := s.know.pos.set t i }) :
      StepO s t ⟨b, (events t pc s.base b es).foldl Know.learn k⟩ (events t pc s.base b es)
  | sync {u} (ht : s.base.ths[t]? = some .idle) (hu : s.base.ths[u]? = some .idle) :
      StepO s t { s with know := s.know.learn (.sync t u) } [.sync t u]

theorem step_soundO {n : Nat} {tr es : List Ev} {s s' : St} {t : Nat} {a : Act} (hi : Inv n tr s) (h : step s (t, a) = some (s', es)) :
    StepO s t s' es := by
  unfold step at h
  simp only at h
  split at h
  · cases h
  next pc ht =>
  split at h
  · split at h
    rotate_left
    · cases h
    split at h
    · cases h
    next b es0 hb =>
    cases h
    exact .op ht (WinCv.step_sound hb) (.inl rfl)
  · next i =>
    split at h
    · cases h
    next v hv =>
    split at h
    rotate_left
    · cases h
    next hle =>
    split at h
    · cases h
    next b es0 hb =>
    cases h
    refine .op ht ?_ (.inr ⟨i, hle, (List.getElem?_eq_some_iff.mp hv).1, rfl⟩)
    unfold loaded at hb
    split at hb
    · split at hb
      · cases hb; exact .goto ht (.load _)
      · cases hb; exact .goto ht (.loadZero _)
    · next all =>
      have hvt := newest_value hi ht rfl hle hv
      subst hvt
      split at hb
      · next h0 => cases hb; exact .decide0 ht h0
      · next h0 => cases hb; exact .decide ht h0 rfl
    · cases hb
  · split at h
    · next hu =>
      split at h
      · next hp => subst hp; cases h; exact .sync ht hu
      · cases h
    · cases h

theorem inv_init (n : Nat) : Inv n [] (init n) where
  locks := WinCv.locks_init n
  counts := WinCv.counts_init n
  ring := WinCv.ring_init n
  stamps := WinCv.stamps_init n
  grants := WinCv.grants_init n
  threads := by simp [init, WinCv.init]
  ok := by
    refine ⟨⟨?_, ?_, ?_, rfl⟩, ⟨by simp [init], ?_, by simp [init], by simp [init], ?_, fun _ => rfl⟩, by simp [init]⟩
    · rintro i t ⟨_, _, h⟩; simp at h
    · rintro i j t l h; simp at h
    · intro e he; cases he
    · intro t
      simp only [init, Know.of, List.getD_eq_getElem?_getD, List.getElem?_replicate]
      split <;> simp
    · intro t h; cases h
  last := rfl

theorem inv_step {n : Nat} {tr es : List Ev} {s s' : St} {t : Nat} (hi : Inv n tr s) (h : StepO s t s' es) : Inv n (tr ++ es) s' := by
  cases h with
  | @op pc b es k ht hs hk =>
    have htn : t < n := by rw [← hi.threads]; exact (List.getElem?_eq_some_iff.mp ht).1
    have hok : Ok n s.base.owner tr k := by
      rcases hk with rfl | ⟨i, h1, h2, rfl⟩
      · exact hi.ok
      · have hp : t < s.know.pos.length := by rw [hi.ok.len]; exact htn
        exact ⟨knows_more hi.ok.knows hp h1, newest_raise hi.ok.newest hp h1 h2, by simpa using hi.ok.len⟩
    have hh : k.hist = s.know.hist := by rcases hk with rfl | ⟨_, _, _, rfl⟩ <;> rfl
    obtain ⟨h1, h2⟩ := ok_events hi.locks ht htn hs hok
    refine ⟨WinCv.locks_step hi.locks hs, WinCv.counts_step hi.locks hi.counts hs, WinCv.ring_step hi.ring hs, ?_, ?_, ?_, h1, ?_⟩
    · rw [plain_append, plain_events]; exact WinCv.stamps_step hi.locks hi.counts hi.stamps hs
    · rw [plain_append, plain_events]; exact WinCv.grants_step hi.locks hi.counts hi.stamps hi.grants hs
    · rw [WinCv.threads_step hs]; exact hi.threads
    · show ((events t pc s.base b es).foldl Know.learn k).hist.getLast? = some b.total
      rw [h2, hh]
      split
      · simp
      · next hw =>
        have := (step_writes ht hs).1 (by simpa using hw)
        rw [this]; simpa using hi.last
  | @sync u ht hu =>
    have htn : t < n := by rw [← hi.threads]; exact (List.getElem?_eq_some_iff.mp ht).1
    have hp : t < s.know.pos.length := by rw [hi.ok.len]; exact htn
    have hb := hi.ok.newest.bound t
    have hb' := hi.ok.newest.bound u
    refine ⟨hi.locks, hi.counts, hi.ring, ?_, ?_, hi.threads, ?_, hi.last⟩
    · rw [plain_append]; simpa [plain] using hi.stamps
    · rw [plain_append]; simpa [plain] using hi.grants
    · exact hi.ok.learn htn (newest_raise hi.ok.newest hp (by omega) (by omega))

theorem inv_exec {n : Nat} {tr : List Ev} {s : St} (h : Exec step (init n) tr s) : Inv n tr s :=
  h.invariant (Inv n) (inv_init n) (fun _ _ l _ _ hi hs => by obtain ⟨t, a⟩ := l; exact inv_step hi (step_soundO hi hs))

theorem unnotified_eq {n : Nat} {tr : List Ev} {s : St} (h : Inv n tr s) : s.base.total = WinCv.unnotified (plain tr) s.base := by
  have := WinCv.total_of h.counts h.grants
  unfold WinCv.unnotified
  omega

/-- Every value of the counter was its value at some instant. -/
theorem had {n : Nat} {tr : List Ev} {s : St} (h : Exec step (init n) tr s) (i v : Nat) (hv : s.know.hist[i]? = some v) :
    ∃ tr₁ tr₂ s₁, tr = tr₁ ++ tr₂ ∧ Exec step (init n) tr₁ s₁ ∧ Exec step s₁ tr₂ s ∧ s₁.base.total = v ∧ nw tr₁ = i := by
  induction h with
  | init =>
    have : i = 0 := by have := (List.getElem?_eq_some_iff.mp hv).1; simp [init] at this; omega
    subst this
    refine ⟨[], [], _, rfl, .init, .init, ?_, rfl⟩
    simpa [init, WinCv.init] using hv
  | @snoc tr s s' l es h hs ih =>
    have hi := inv_exec h
    have hi' := inv_exec (h.snoc hs)
    by_cases hlt : i < s.know.hist.length
    · have hold : s.know.hist[i]? = some v := by
        have hso := step_soundO hi (t := l.1) (a := l.2) hs
        revert hlt hv
        cases hso with
        | @op pc b es k ht hst hk =>
          intro hv hlt
          have htn : l.1 < n := by rw [← hi.threads]; exact (List.getElem?_eq_some_iff.mp ht).1
          have hh : k.hist = s.know.hist := by rcases hk with rfl | ⟨_, _, _, rfl⟩ <;> rfl
          have hok : Ok n s.base.owner tr k := by
            rcases hk with rfl | ⟨i, h1, h2, rfl⟩
            · exact hi.ok
            · have hp : l.1 < s.know.pos.length := by rw [hi.ok.len]; exact htn
              exact ⟨knows_more hi.ok.knows hp h1, newest_raise hi.ok.newest hp h1 h2, by simpa using hi.ok.len⟩
          have := (ok_events hi.locks ht htn hst hok).2
          simp only [this, hh] at hv
          rwa [List.getElem?_append_left hlt] at hv
        | sync => exact fun hv _ => hv
      obtain ⟨tr₁, tr₂, s₁, h1, h2, h3, h4⟩ := ih hold
      exact ⟨tr₁, tr₂ ++ es, s₁, by rw [h1, List.append_assoc], h2, h3.snoc hs, h4⟩
    · refine ⟨tr ++ es, [], s', by simp, h.snoc hs, .init, ?_, ?_⟩
      all_goals
        have hl := (List.getElem?_eq_some_iff.mp hv).1
        have h1 := hi.ok.knows.len
        have h2 := hi'.ok.knows.len
        have hle : nw es ≤ 1 := by
          cases step_soundO hi (t := l.1) (a := l.2) hs with
          | op => rw [nw_events]; split <;> omega
          | sync => exact Nat.zero_le _
        rw [nw_append] at h2
        have h3 : i = s'.know.hist.length - 1 := by omega
      · have h4 := hi'.last
        rw [List.getLast?_eq_getElem?, ← h3, hv] at h4
        cases h4; rfl
      · rw [nw_append]; omega

/-! ## A waiter is registered before it unlocks the user's lock -/

/-- The thread has been registered since its last call. -/
def Registered (tr : List Ev) (w : Nat) : Prop :=
  ∃ a v b, tr = a ++ .wrote w v :: b ∧ ∀ k, Ev.ev w (.called w k) ∉ b

structure Order (tr : List Ev) (s : St) : Prop where
  pend : ∀ w k q, (s.base.ths[w]? = some (.wExit k q) ∨ s.base.ths[w]? = some (.wUnlock k q)) → Registered tr w
  done : ∀ w a b, tr = a ++ .ev w (.unlocked w) :: b → Registered a w ∧ ∃ b', b = .rel w .user :: b'

theorem registered_append {tr es : List Ev} {w : Nat} (h : Registered tr w) (hc : ∀ k, Ev.ev w (.called w k) ∉ es) : Registered (tr ++ es) w := by
  obtain ⟨a, v, b, rfl, hb⟩ := h
  refine ⟨a, v, b ++ es, by simp, fun k hk => ?_⟩
  rcases List.mem_append.mp hk with hk | hk
  · exact hb k hk
  · exact hc k hk

theorem done_append {tr es : List Ev} (hd : ∀ w a b, tr = a ++ .ev w (.unlocked w) :: b → Registered a w ∧ ∃ b', b = .rel w .user :: b')
    (hn : ∀ w, Ev.ev w (.unlocked w) ∉ es) :
    ∀ w a b, tr ++ es = a ++ .ev w (.unlocked w) :: b → Registered a w ∧ ∃ b', b = .rel w .user :: b' := by
  intro w a b he
  rcases List.append_eq_append_iff.mp he with ⟨c, h1, h2⟩ | ⟨c, h1, h2⟩
  · exact absurd (by rw [h2]; simp) (hn w)
  · cases c with
    | nil => exact absurd (by rw [List.nil_append] at h2; rw [← h2]; simp) (hn w)
    | cons x c =>
      simp only [List.cons_append, List.cons.injEq] at h2
      obtain ⟨rfl, rfl⟩ := h2
      obtain ⟨h3, b', rfl⟩ := hd w a c h1
      exact ⟨h3, b' ++ es, by simp⟩

theorem mem_events {t : Nat} {pc : PC} {s b : WinCv.St} {es : List WinCv.Ev} {w : Nat} {e : WinCv.Ev} (h : Ev.ev w e ∈ events t pc s b es) : e ∈ es := by
  have : e ∈ plain (events t pc s b es) := List.mem_filterMap.mpr ⟨_, h, rfl⟩
  rwa [plain_events] at this

theorem order_step {n : Nat} {tr es : List Ev} {s s' : St} {t : Nat} (hi : Inv n tr s) (ho : Order tr s) (h : StepO s t s' es) :
    Order (tr ++ es) s' := by
  cases h with
  | @sync u ht hu =>
    refine ⟨fun w k q hw => registered_append (ho.pend w k q hw) (by simp), done_append ho.done (by simp)⟩
  | @op pc b es k ht hs hk =>
    -- another thread
    have other : ∀ w k q, t ≠ w → (b.ths[w]? = some (.wExit k q) ∨ b.ths[w]? = some (.wUnlock k q)) →
        Registered (tr ++ events t pc s.base b es) w := by
      intro w k q hne hw
      have hsame : b.ths[w]? = s.base.ths[w]? := by
        cases hs <;> first | rfl | exact get_set_ne hne
      rw [hsame] at hw
      refine registered_append (ho.pend w k q hw) ?_
      intro k' hm
      have := events_thread _ hm
      exact hne this.symm
    -- steps that do not unlock
    have noUnlock : (∀ w, WinCv.Ev.unlocked w ∉ es) → ∀ w a b', tr ++ events t pc s.base b es = a ++ .ev w (.unlocked w) :: b' →
        Registered a w ∧ ∃ b'', b' = .rel w .user :: b'' :=
      fun hn => done_append ho.done (fun w hm => hn w (mem_events hm))
    by_cases hun : ∃ k q, pc = .wUnlock k q
    · obtain ⟨k', q, rfl⟩ := hun
      cases hs <;> (try (rename_i h; rw [ht] at h; cases h; done))
      case goto h hg => rw [ht] at h; cases h; cases hg
      case enter h hg _ => rw [ht] at h; cases h; cases hg
      case exit h hg => rw [ht] at h; cases h; cases hg
      case leave h hl _ _ => rw [ht] at h; cases h; cases hl
      case leave0 h hl _ _ => rw [ht] at h; cases h; cases hl
      case userLock h _ => rw [ht] at h; cases h
      case userUnlock h _ => rw [ht] at h; cases h
      case first h _ => rw [ht] at h; cases h
      case join h _ _ _ => rw [ht] at h; cases h
      case advance h _ _ _ => rw [ht] at h; cases h
      case around h _ _ _ => rw [ht] at h; cases h
      case create h _ => rw [ht] at h; cases h
      case token h _ _ => rw [ht] at h; cases h
      case relock h _ => rw [ht] at h; cases h
      case decide0 h _ => rw [ht] at h; cases h
      case decide h _ _ => rw [ht] at h; cases h
      case wakeLast h _ _ _ => rw [ht] at h; cases h
      case wakeNext h _ _ _ => rw [ht] at h; cases h
      case unlock k2 q2 h =>
        have hu := hi.locks.early t _ ht rfl
        have hev : events t (.wUnlock k' q) s.base { s.base with user := none, ths := s.base.ths.set t (.blocked k2 q2) } [.unlocked t] =
            [.ev t (.unlocked t), .rel t .user] := by
          simp [events, writes, hu]
        refine ⟨?_, ?_⟩
        · intro w k q hw
          by_cases hne : t = w
          · subst hne
            simp only [get_set_self ht] at hw
            rcases hw with hw | hw <;> cases hw
          · exact other w k q hne hw
        · intro w a b' he
          rw [hev] at he
          rcases List.append_eq_append_iff.mp he with ⟨c, h1, h2⟩ | ⟨c, h1, h2⟩
          · cases c with
            | nil =>
              simp only [List.nil_append, List.cons.injEq, Ev.ev.injEq] at h2
              obtain ⟨⟨rfl, _⟩, rfl⟩ := h2
              rw [List.append_nil] at h1
              subst h1
              exact ⟨ho.pend t k' q (.inr ht), [], rfl⟩
            | cons x c =>
              exfalso
              simp only [List.cons_append, List.cons.injEq] at h2
              cases c with
              | nil => simp at h2
              | cons y c => simp at h2
          · cases c with
            | nil =>
              simp only [List.nil_append, List.cons.injEq, Ev.ev.injEq] at h2
              obtain ⟨⟨rfl, _⟩, rfl⟩ := h2
              rw [List.append_nil] at h1
              subst h1
              exact ⟨ho.pend w k' q (.inr ht), [], rfl⟩
            | cons x c =>
              simp only [List.cons_append, List.cons.injEq] at h2
              obtain ⟨rfl, rfl⟩ := h2
              obtain ⟨h3, b', rfl⟩ := ho.done w a c h1
              exact ⟨h3, b' ++ _, by simp; rfl⟩
    · have hnu : ∀ w, WinCv.Ev.unlocked w ∉ es := by
        intro w hm
        cases hs with
        | goto h hg => cases hg <;> simp at hm
        | exit h hg => cases hg <;> simp at hm
        | unlock h => rw [ht] at h; cases h; exact hun ⟨_, _, rfl⟩
        | _ => simp at hm
      refine ⟨?_, noUnlock hnu⟩
      intro w k q hw
      by_cases hne : t = w
      · subst hne
        -- the thread itself has just been registered, or was before
        by_cases hwr : writes pc es = true ∧ es = [.registered t]
        · obtain ⟨h1, rfl⟩ := hwr
          refine ⟨tr ++ ((if s.base.owner ≠ some t ∧ b.owner = some t then [Ev.acq t .internal] else []) ++
            (if s.base.user ≠ some t ∧ b.user = some t then [Ev.acq t .user] else [])), b.total,
            [Ev.ev t (.registered t)] ++ (if s.base.owner = some t ∧ b.owner ≠ some t then [.rel t .internal] else []) ++
            (if s.base.user = some t ∧ b.user ≠ some t then [.rel t .user] else []), ?_, ?_⟩
          · simp [events, h1]
          · intro k' hm
            have : Ev.ev t (.called t k') ∈ events t pc s.base b [.registered t] := by
              simp only [events, h1, if_true, List.map_cons, List.map_nil]
              simp only [List.mem_append] at hm ⊢
              rcases hm with (hm | hm) | hm
              · exact .inl (.inl (.inr hm))
              · exact .inl (.inr hm)
              · exact .inr hm
            have := mem_events this
            simp at this
        · have hpc : (∃ k q, pc = .wExit k q) ∧ (∀ k', WinCv.Ev.called t k' ∉ es) := by
            cases hs <;> try simp only [get_set_self ht, Option.some.injEq, reduceCtorEq, or_self, or_false] at hw
            case userLock h _ => rw [ht] at h; cases h; rw [ht] at hw; rcases hw with hw | hw <;> cases hw
            case userUnlock h _ => rw [ht] at h; cases h; rw [ht] at hw; rcases hw with hw | hw <;> cases hw
            case goto h hg => cases hg <;> simp at hw
            case enter h hg _ => cases hg <;> simp at hw
            case exit h hg =>
              rw [ht] at h; cases h
              cases hg <;> simp at hw ⊢
            case first h _ => rw [ht] at h; cases h; exact absurd ⟨rfl, rfl⟩ hwr
            case join h _ _ _ => rw [ht] at h; cases h; exact absurd ⟨rfl, rfl⟩ hwr
            case create h _ => rw [ht] at h; cases h; exact absurd ⟨rfl, rfl⟩ hwr
            case advance h _ _ _ => rw [ht] at h; cases h; rw [ht] at hw; rcases hw with hw | hw <;> cases hw
          obtain ⟨⟨k', q', rfl⟩, hc⟩ := hpc
          exact registered_append (ho.pend t k' q' (.inl ht)) (fun k hm => hc k (mem_events hm))
      · exact other w k q hne hw

theorem order_exec {n : Nat} {tr : List Ev} {s : St} (h : Exec step (init n) tr s) : Order tr s :=
  (h.invariant (fun tr s => Inv n tr s ∧ Order tr s) ⟨inv_init n, ⟨fun w k q hw => by
      rcases hw with hw | hw <;> (have := get_replicate hw; cases this), fun w a b he => by simp at he⟩⟩ (fun _ _ l _ _ hi hs => by
    obtain ⟨t, a⟩ := l
    exact ⟨inv_step hi.1 (step_soundO hi.1 hs), order_step hi.1 hi.2 (step_soundO hi.1 hs)⟩)).2

end Verif.WinCvOrder
