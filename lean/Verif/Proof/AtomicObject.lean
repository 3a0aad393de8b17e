import Verif.Base.Count
import Verif.Spec.SyncObjects

/-! Consequences of being an atomic object. -/

namespace Verif.Atomic

variable {D S : Type}

inductive StepCase (O : Obj D S) (a : St D S) : List (Ev S) → St D S → Prop
  | call {t op} (h : a.ths[t]? = some .idle) : StepCase O a [.called t op] ⟨a.d, a.ths.set t (.pending op false)⟩
  | expire {t e} (h : a.ths[t]? = some (.pending (.acq .timed) e)) :
      StepCase O a [.timedOut t] ⟨a.d, a.ths.set t (.pending (.acq .timed) true)⟩
  | sig {t x e} (h : a.ths[t]? = some (.pending (.sig x) e)) :
      StepCase O a [] ⟨O.put x a.d, a.ths.set t (.done (.sig x) true)⟩
  | take {t k e} (h : a.ths[t]? = some (.pending (.acq k) e)) (hr : O.ready a.d = true) :
      StepCase O a [] ⟨O.take a.d, a.ths.set t (.done (.acq k) true)⟩
  | fail {t k e} (h : a.ths[t]? = some (.pending (.acq k) e)) (hr : O.ready a.d = false) (hm : mayFail k e = true) :
      StepCase O a [] ⟨a.d, a.ths.set t (.done (.acq k) false)⟩
  | ret {t op r} (h : a.ths[t]? = some (.done op r)) : StepCase O a [.ret t op r] ⟨a.d, a.ths.set t .idle⟩
  | throw {t op e} (h : a.ths[t]? = some (.pending op e)) : StepCase O a [.threw t op] ⟨a.d, a.ths.set t .idle⟩

theorem step_cases {O : Obj D S} {a a' : St D S} {l : Nat × Act S} {es : List (Ev S)}
    (h : step O a l = some (a', es)) : StepCase O a es a' := by
  obtain ⟨t, act⟩ := l
  unfold step at h
  simp only at h
  split at h
  · cases h
  next st ht =>
  split at h
  · cases h; exact .call ht
  · cases h; exact .expire ht
  · cases h; exact .sig ht
  · split at h
    · next hr => cases h; exact .take ht hr
    · next hr =>
      split at h
      · next hm => cases h; exact .fail ht (Bool.eq_false_iff.mpr hr) hm
      · cases h
  · cases h; exact .ret ht
  · cases h; exact .throw ht
  · cases h

/-! ## Threads and their calls -/

theorem prog_snoc (tr : List (Ev S)) (e : Ev S) (t : Nat) : prog (tr ++ [e]) t = progUpd t (prog tr t) e := by
  simp [prog]

def StatusOK (p : Option (Op S × Bool)) : Status S → Prop
  | .idle => p = none
  | .pending op e => p = some (op, e)
  | .done op _ => ∃ e, p = some (op, e)

/-- `OInv` relates the history to the statuses and keeps the observations behind the results. -/
structure OInv (O : Obj D S) (R : List (Ev S) → St D S → Prop) (tr : List (Ev S)) (a : St D S) : Prop where
  prog : ∀ (t : Nat) st, a.ths[t]? = some st → StatusOK (prog tr t) st
  done : ∀ (t : Nat) k b, a.ths[t]? = some (.done (.acq k) b) → Observed O R tr t k b
  past : ∀ pre t k b post, tr = pre ++ .ret t (.acq k) b :: post → Observed O R pre t k b

theorem observed_snoc {O : Obj D S} {R : List (Ev S) → St D S → Prop} {tr : List (Ev S)} {t : Nat} {k : Kind} {b : Bool}
    {e : Ev S} (h : Observed O R tr t k b) (he : e.silentFor t = true) : Observed O R (tr ++ [e]) t k b := by
  obtain ⟨tr₁, tr₂, d, e', rfl, h1, h2, h0, h3, h4, h5⟩ := h
  refine ⟨tr₁, tr₂ ++ [e], d, e', by simp, h1, h2, h0, h3, h4, ?_⟩
  intro ev hev
  rcases List.mem_append.mp hev with h | h
  · exact h5 ev h
  · simp only [List.mem_singleton] at h; subst h; exact he

theorem snoc_split {α : Type} {tr pre post : List α} {e x : α} (h : tr ++ [e] = pre ++ x :: post) :
    (tr = pre ∧ e = x ∧ post = []) ∨ ∃ post', tr = pre ++ x :: post' := by
  rcases List.eq_nil_or_concat post with rfl | ⟨p, y, rfl⟩
  · have := List.append_inj' h rfl
    exact .inl ⟨this.1, by simpa using this.2, rfl⟩
  · right
    refine ⟨p, ?_⟩
    have h' : tr ++ [e] = (pre ++ x :: p) ++ [y] := by rw [h]; simp
    exact (List.append_inj' h' rfl).1

theorem oinv_init (O : Obj D S) (R : List (Ev S) → St D S → Prop) (n : Nat) : OInv O R [] (init O n) where
  prog := by intro t st h; rw [get_replicate h]; rfl
  done := by intro t k b h; have := get_replicate h; cases this
  past := by intro pre t k b post h; simp at h

theorem oinv_silent {O : Obj D S} {R : List (Ev S) → St D S → Prop} {tr : List (Ev S)} {a : St D S} {t : Nat} {op : Op S}
    {e b : Bool} {d' : D} (I : OInv O R tr a) (h : a.ths[t]? = some (.pending op e))
    (hd : ∀ k, op = .acq k → Observed O R tr t k b) : OInv O R tr ⟨d', a.ths.set t (.done op b)⟩ where
  prog := by
    intro u st hu
    rcases get_set_cases hu with ⟨rfl, rfl⟩ | ⟨_, hu⟩
    · exact ⟨e, I.prog t _ h⟩
    · exact I.prog u st hu
  done := by
    intro u k b' hu
    rcases get_set_cases hu with ⟨rfl, h'⟩ | ⟨_, hu⟩
    · cases h'; exact hd k rfl
    · exact I.done u k b' hu
  past := I.past

theorem oinv_event {O : Obj D S} {R : List (Ev S) → St D S → Prop} {tr : List (Ev S)} {a : St D S} {t : Nat} {ev : Ev S}
    {st' : Status S} (I : OInv O R tr a) (hev : ev.thread = t) (hst : StatusOK (progUpd t (Atomic.prog tr t) ev) st')
    (hnd : ∀ op b, st' ≠ .done op b) (hpast : ∀ k b, ev = .ret t (.acq k) b → Observed O R tr t k b) :
    OInv O R (tr ++ [ev]) ⟨a.d, a.ths.set t st'⟩ where
  prog := by
    intro u st hu
    rw [prog_snoc]
    rcases get_set_cases hu with ⟨rfl, rfl⟩ | ⟨hne, hu⟩
    · exact hst
    · have : progUpd u (Atomic.prog tr u) ev = Atomic.prog tr u := by
        cases ev <;> simp only [Ev.thread] at hev <;> subst hev <;> simp [progUpd, hne]
      rw [this]
      exact I.prog u st hu
  done := by
    intro u k b hu
    rcases get_set_cases hu with ⟨_, h⟩ | ⟨hne, hu⟩
    · exact absurd h.symm (hnd _ _)
    · refine observed_snoc (I.done u k b hu) ?_
      cases ev <;> simp only [Ev.thread] at hev <;> subst hev <;> simp [Ev.silentFor, hne]
  past := by
    intro pre u k b post h
    rcases snoc_split h with ⟨rfl, he, _⟩ | ⟨post', rfl⟩
    · have hu : u = t := by rw [he] at hev; exact hev
      subst hu
      exact hpast k b he
    · exact I.past pre u k b post' rfl

theorem oinv_step {O : Obj D S} {R : List (Ev S) → St D S → Prop} {tr es : List (Ev S)} {a a' : St D S}
    (I : OInv O R tr a) (hR : R tr a) (h : StepCase O a es a') : OInv O R (tr ++ es) a' := by
  cases h with
  | call h =>
    refine oinv_event I rfl ?_ (by simp) (by simp)
    simp [progUpd, StatusOK]
  | expire h =>
    refine oinv_event I rfl ?_ (by simp) (by simp)
    have := I.prog _ _ h
    simp only [StatusOK] at this
    simp [progUpd, StatusOK, this]
  | sig h =>
    rw [List.append_nil]
    exact oinv_silent I h (by simp)
  | take h hr =>
    rw [List.append_nil]
    refine oinv_silent I h ?_
    intro k hk
    cases hk
    exact ⟨tr, [], a, _, by simp, hR, hr, h, I.prog _ _ h, by simp, by simp⟩
  | fail h hr hm =>
    rw [List.append_nil]
    refine oinv_silent I h ?_
    intro k hk
    cases hk
    exact ⟨tr, [], a, _, by simp, hR, hr, h, I.prog _ _ h, fun _ => hm, by simp⟩
  | ret h =>
    refine oinv_event I rfl ?_ (by simp) ?_
    · simp [progUpd, StatusOK]
    · intro k b he
      cases he
      exact I.done _ _ _ h
  | throw h =>
    refine oinv_event I rfl ?_ (by simp) (by simp)
    simp [progUpd, StatusOK]

/-! ## Ownership of the mutex -/

/-- Owner of the mutex: by the calls, or between the instant the acquisition took effect and its return, or between the
call of `unlock` and the instant it takes effect. -/
def Owns (tr : List (Ev One)) (a : St Bool One) (t : Nat) : Prop :=
  holds tr t = true ∨ (∃ k, a.ths[t]? = some (.done (.acq k) true)) ∨ (∃ x e, a.ths[t]? = some (.pending (.sig x) e))

structure LInv (tr : List (Ev One)) (a : St Bool One) : Prop where
  unique : ∀ t u, Owns tr a t → Owns tr a u → t = u
  owned : ∀ t, Owns tr a t → a.d = true
  owner : a.d = true → ∃ t, Owns tr a t
  sig : ∀ (t : Nat) x e, a.ths[t]? = some (.pending (.sig x) e) → holds tr t = false

theorem holds_snoc (tr : List (Ev One)) (e : Ev One) (t : Nat) : holds (tr ++ [e]) t = holdsUpd t (holds tr t) e := by
  simp [holds]

theorem unlocked_prefix {tr : List (Ev One)} {es : List (Ev One)} (h : UnlockedByOwner (tr ++ es)) : UnlockedByOwner tr := by
  intro pre t x post he
  exact h pre t x (post ++ es) (by rw [he]; simp)

theorem linv_init (n : Nat) : LInv [] (init lockObj n) := by
  have no : ∀ t, ¬ Owns [] (init lockObj n) t := by
    rintro t (h | ⟨k, h⟩ | ⟨x, e, h⟩)
    · cases h
    · have := get_replicate h; cases this
    · have := get_replicate h; cases this
  refine ⟨fun t _ h => absurd h (no t), fun t h => absurd h (no t), (fun h => by cases h), ?_⟩
  intro t x e h
  rfl

/-- The owner stays the same. -/
theorem linv_same {tr tr' : List (Ev One)} {a a' : St Bool One} (I : LInv tr a) (hd : a'.d = a.d)
    (ho : ∀ t, Owns tr' a' t ↔ Owns tr a t)
    (hs : ∀ (t : Nat) x e, a'.ths[t]? = some (.pending (.sig x) e) → holds tr' t = false) : LInv tr' a' where
  unique := fun t u h1 h2 => I.unique t u ((ho t).mp h1) ((ho u).mp h2)
  owned := fun t h => by rw [hd]; exact I.owned t ((ho t).mp h)
  owner := fun h => by
    obtain ⟨t, ht⟩ := I.owner (by rw [← hd]; exact h)
    exact ⟨t, (ho t).mpr ht⟩
  sig := hs

theorem owns_set_ne {tr tr' : List (Ev One)} {a : St Bool One} {d' : Bool} {t u : Nat} {st : Status One} (hne : t ≠ u)
    (hh : holds tr' u = holds tr u) : Owns tr' ⟨d', a.ths.set t st⟩ u ↔ Owns tr a u := by
  simp only [Owns, hh, get_set_ne hne]

theorem linv_step {tr es : List (Ev One)} {a a' : St Bool One} (I : LInv tr a) (hu : UnlockedByOwner (tr ++ es))
    (h : StepCase lockObj a es a') : LInv (tr ++ es) a' := by
  have sigset : ∀ {tr' : List (Ev One)} {t : Nat} {st' : Status One}, (∀ u, u ≠ t → holds tr' u = holds tr u) →
      (∀ x e, st' = .pending (.sig x) e → holds tr' t = false) →
      ∀ (u : Nat) x e, (a.ths.set t st')[u]? = some (.pending (.sig x) e) → holds tr' u = false := by
    intro tr' t st' h1 h2 u x e hx
    rcases get_set_cases hx with ⟨rfl, h'⟩ | ⟨hne, hx⟩
    · exact h2 x e h'.symm
    · rw [h1 u (Ne.symm hne)]; exact I.sig u x e hx
  cases h with
  | @call t op h =>
    cases op with
    | acq k =>
      have hh : ∀ u, holds (tr ++ [.called t (.acq k)]) u = holds tr u := by intro u; rw [holds_snoc]; rfl
      refine linv_same I rfl ?_ (sigset (fun u _ => hh u) (by simp))
      intro u
      by_cases hne : t = u
      · subst hne
        simp only [Owns, hh, get_set_self h, h]
        simp
      · exact owns_set_ne hne (hh u)
    | sig x =>
      have ht : holds tr t = true := hu tr t x [] rfl
      have hself : holds (tr ++ [.called t (.sig x)]) t = false := by rw [holds_snoc]; simp [holdsUpd]
      have hoth : ∀ u, u ≠ t → holds (tr ++ [.called t (.sig x)]) u = holds tr u := by
        intro u hne; rw [holds_snoc]; simp [holdsUpd, Ne.symm hne]
      refine linv_same I rfl ?_ (sigset hoth (fun _ _ _ => hself))
      intro u
      by_cases hne : t = u
      · subst hne
        constructor
        · intro _; exact .inl ht
        · intro _; exact .inr (.inr ⟨x, false, get_set_self h⟩)
      · exact owns_set_ne hne (hoth u (Ne.symm hne))
  | @expire t e h =>
    have hh : ∀ u, holds (tr ++ [.timedOut t]) u = holds tr u := by intro u; rw [holds_snoc]; rfl
    refine linv_same I rfl ?_ (sigset (fun u _ => hh u) (by simp))
    intro u
    by_cases hne : t = u
    · subst hne
      simp only [Owns, hh, get_set_self h, h]
      simp
    · exact owns_set_ne hne (hh u)
  | @sig t x e h =>
    rw [List.append_nil]
    have hown : Owns tr a t := .inr (.inr ⟨x, e, h⟩)
    have no : ∀ u, ¬ Owns tr ⟨lockObj.put x a.d, a.ths.set t (.done (.sig x) true)⟩ u := by
      intro u hu'
      by_cases hne : t = u
      · subst hne
        rcases hu' with h' | ⟨k, h'⟩ | ⟨y, e', h'⟩
        · rw [I.sig t x e h] at h'; cases h'
        · simp only [get_set_self h] at h'; cases h'
        · simp only [get_set_self h] at h'; cases h'
      · exact hne (I.unique t u hown ((owns_set_ne hne rfl).mp hu'))
    refine ⟨fun t _ h => absurd h (no t), fun t h => absurd h (no t), fun h => ?_, sigset (fun _ _ => rfl) (by simp)⟩
    cases x; cases h
  | @take t k e h hr =>
    rw [List.append_nil]
    have hfree : a.d = false := by simpa [lockObj] using hr
    have no : ∀ u, ¬ Owns tr a u := by
      intro u hu'
      have := I.owned u hu'
      rw [hfree] at this; cases this
    have only : ∀ u, Owns tr ⟨lockObj.take a.d, a.ths.set t (.done (.acq k) true)⟩ u → u = t := by
      intro u hu'
      by_cases hne : t = u
      · exact hne.symm
      · exact absurd ((owns_set_ne hne rfl).mp hu') (no u)
    refine ⟨fun u v h1 h2 => (only u h1).trans (only v h2).symm, fun _ _ => rfl,
      fun _ => ⟨t, .inr (.inl ⟨k, get_set_self h⟩)⟩, sigset (fun _ _ => rfl) (by simp)⟩
  | @fail t k e h hr hm =>
    rw [List.append_nil]
    refine linv_same I rfl ?_ (sigset (fun _ _ => rfl) (by simp))
    intro u
    by_cases hne : t = u
    · subst hne
      simp only [Owns, get_set_self h, h]
      simp
    · exact owns_set_ne hne rfl
  | @ret t op r h =>
    have hoth : ∀ u, u ≠ t → holds (tr ++ [.ret t op r]) u = holds tr u := by
      intro u hne; rw [holds_snoc]
      cases op <;> cases r <;> simp [holdsUpd, Ne.symm hne]
    refine linv_same I rfl ?_ (sigset hoth (by simp))
    intro u
    by_cases hne : t = u
    · subst hne
      simp only [Owns, get_set_self h, h, holds_snoc]
      cases op <;> cases r <;> simp [holdsUpd]
    · exact owns_set_ne hne (hoth u (Ne.symm hne))
  | @throw t op e h =>
    have hoth : ∀ u, u ≠ t → holds (tr ++ [.threw t op]) u = holds tr u := by
      intro u hne; rw [holds_snoc]
      cases op <;> simp [holdsUpd, Ne.symm hne]
    refine linv_same I rfl ?_ (sigset hoth (by simp))
    intro u
    by_cases hne : t = u
    · subst hne
      simp only [Owns, get_set_self h, h, holds_snoc]
      cases op with
      | acq k => simp [holdsUpd]
      | sig x => simp only [holdsUpd, if_true]; exact ⟨fun _ => .inr (.inr ⟨x, e, rfl⟩), fun _ => .inl trivial⟩
    · exact owns_set_ne hne (hoth u (Ne.symm hne))

theorem linv_exec {n : Nat} {tr : List (Ev One)} {a : St Bool One} (h : Exec (step lockObj) (init lockObj n) tr a)
    (hu : UnlockedByOwner tr) : LInv tr a := by
  induction h with
  | init => exact linv_init n
  | snoc hex hs ih => exact linv_step (ih (unlocked_prefix hu)) hu (step_cases hs)

/-! ## Counting -/

def Status.pendingSig : Status S → Bool
  | .pending (.sig _) _ => true
  | _ => false

def Status.doneSig : Status S → Bool
  | .done (.sig _) _ => true
  | _ => false

def Status.doneAcq : Status S → Bool
  | .done (.acq _) true => true
  | _ => false

def CInv (i : Nat) (tr : List (Ev One)) (a : St Nat One) : Prop :=
  i + signalsCalled tr = a.d + successes tr + signalsThrown tr + a.ths.countP Status.doneAcq + a.ths.countP Status.pendingSig ∧
  signalsCalled tr = signalsDone tr + signalsThrown tr + a.ths.countP Status.doneSig + a.ths.countP Status.pendingSig

theorem cinv_init (i n : Nat) : CInv i [] (init (counterObj i) n) := by
  simp only [CInv, init, counterObj]
  rw [countP_replicate_false rfl, countP_replicate_false rfl, countP_replicate_false rfl]
  exact ⟨rfl, rfl⟩

theorem cinv_step {i : Nat} {tr es : List (Ev One)} {a a' : St Nat One} (I : CInv i tr a)
    (h : StepCase (counterObj i) a es a') : CInv i (tr ++ es) a' := by
  obtain ⟨I1, I2⟩ := I
  have s1 : successes (tr ++ es) = successes tr + successes es := List.countP_append
  have s2 : signalsCalled (tr ++ es) = signalsCalled tr + signalsCalled es := List.countP_append
  have s3 : signalsDone (tr ++ es) = signalsDone tr + signalsDone es := List.countP_append
  have s4 : signalsThrown (tr ++ es) = signalsThrown tr + signalsThrown es := List.countP_append
  cases h with
  | @call t op h =>
    have c1 := countP_set (p := Status.doneAcq) (b := .pending op false) h
    have c2 := countP_set (p := Status.pendingSig) (b := .pending op false) h
    have c3 := countP_set (p := Status.doneSig) (b := .pending op false) h
    cases op with
    | acq k =>
      change _ + 0 = _ + 0 at c1
      change _ + 0 = _ + 0 at c2
      change _ + 0 = _ + 0 at c3
      change _ = _ + 0 at s1
      change _ = _ + 0 at s2
      change _ = _ + 0 at s3
      change _ = _ + 0 at s4
      simp only [CInv]; omega
    | sig x =>
      change _ + 0 = _ + 0 at c1
      change _ + 0 = _ + 1 at c2
      change _ + 0 = _ + 0 at c3
      change _ = _ + 0 at s1
      change _ = _ + 1 at s2
      change _ = _ + 0 at s3
      change _ = _ + 0 at s4
      simp only [CInv]; omega
  | @expire t e h =>
    have c1 := countP_set (p := Status.doneAcq) (b := .pending (.acq .timed) true) h
    have c2 := countP_set (p := Status.pendingSig) (b := .pending (.acq .timed) true) h
    have c3 := countP_set (p := Status.doneSig) (b := .pending (.acq .timed) true) h
    change _ + 0 = _ + 0 at c1
    change _ + 0 = _ + 0 at c2
    change _ + 0 = _ + 0 at c3
    change _ = _ + 0 at s1
    change _ = _ + 0 at s2
    change _ = _ + 0 at s3
    change _ = _ + 0 at s4
    simp only [CInv]; omega
  | @sig t x e h =>
    have c1 := countP_set (p := Status.doneAcq) (b := .done (.sig x) true) h
    have c2 := countP_set (p := Status.pendingSig) (b := .done (.sig x) true) h
    have c3 := countP_set (p := Status.doneSig) (b := .done (.sig x) true) h
    change _ + 0 = _ + 0 at c1
    change _ + 1 = _ + 0 at c2
    change _ + 0 = _ + 1 at c3
    change _ = _ + 0 at s1
    change _ = _ + 0 at s2
    change _ = _ + 0 at s3
    change _ = _ + 0 at s4
    simp only [CInv, counterObj]; omega
  | @take t k e h hr =>
    have c1 := countP_set (p := Status.doneAcq) (b := .done (.acq k) true) h
    have c2 := countP_set (p := Status.pendingSig) (b := .done (.acq k) true) h
    have c3 := countP_set (p := Status.doneSig) (b := .done (.acq k) true) h
    change _ + 0 = _ + 1 at c1
    change _ + 0 = _ + 0 at c2
    change _ + 0 = _ + 0 at c3
    change _ = _ + 0 at s1
    change _ = _ + 0 at s2
    change _ = _ + 0 at s3
    change _ = _ + 0 at s4
    have : 0 < a.d := by simpa [counterObj] using hr
    simp only [CInv, counterObj]; omega
  | @fail t k e h hr hm =>
    have c1 := countP_set (p := Status.doneAcq) (b := .done (.acq k) false) h
    have c2 := countP_set (p := Status.pendingSig) (b := .done (.acq k) false) h
    have c3 := countP_set (p := Status.doneSig) (b := .done (.acq k) false) h
    change _ + 0 = _ + 0 at c1
    change _ + 0 = _ + 0 at c2
    change _ + 0 = _ + 0 at c3
    change _ = _ + 0 at s1
    change _ = _ + 0 at s2
    change _ = _ + 0 at s3
    change _ = _ + 0 at s4
    simp only [CInv]; omega
  | @ret t op r h =>
    have c1 := countP_set (p := Status.doneAcq) (b := .idle) h
    have c2 := countP_set (p := Status.pendingSig) (b := .idle) h
    have c3 := countP_set (p := Status.doneSig) (b := .idle) h
    cases op with
    | acq k =>
      cases r
      · change _ + 0 = _ + 0 at c1
        change _ + 0 = _ + 0 at c2
        change _ + 0 = _ + 0 at c3
        change _ = _ + 0 at s1
        change _ = _ + 0 at s2
        change _ = _ + 0 at s3
        change _ = _ + 0 at s4
        simp only [CInv]; omega
      · change _ + 1 = _ + 0 at c1
        change _ + 0 = _ + 0 at c2
        change _ + 0 = _ + 0 at c3
        change _ = _ + 1 at s1
        change _ = _ + 0 at s2
        change _ = _ + 0 at s3
        change _ = _ + 0 at s4
        simp only [CInv]; omega
    | sig x =>
      change _ + 0 = _ + 0 at c1
      change _ + 0 = _ + 0 at c2
      change _ + 1 = _ + 0 at c3
      change _ = _ + 0 at s1
      change _ = _ + 0 at s2
      change _ = _ + 1 at s3
      change _ = _ + 0 at s4
      simp only [CInv]; omega
  | @throw t op e h =>
    have c1 := countP_set (p := Status.doneAcq) (b := .idle) h
    have c2 := countP_set (p := Status.pendingSig) (b := .idle) h
    have c3 := countP_set (p := Status.doneSig) (b := .idle) h
    change _ = _ + 0 at s1
    change _ = _ + 0 at s2
    change _ = _ + 0 at s3
    cases op with
    | acq k =>
      change _ + 0 = _ + 0 at c1
      change _ + 0 = _ + 0 at c2
      change _ + 0 = _ + 0 at c3
      change _ = _ + 0 at s4
      simp only [CInv]; omega
    | sig x =>
      change _ + 0 = _ + 0 at c1
      change _ + 1 = _ + 0 at c2
      change _ + 0 = _ + 0 at c3
      change _ = _ + 1 at s4
      simp only [CInv]; omega

theorem cinv_exec {i n : Nat} {tr : List (Ev One)} {a : St Nat One}
    (h : Exec (step (counterObj i)) (init (counterObj i) n) tr a) : CInv i tr a :=
  h.invariant (CInv i) (cinv_init i n) (fun _ _ _ _ _ I hs => cinv_step I (step_cases hs))

end Verif.Atomic
