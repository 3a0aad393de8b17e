import Verif.Base.Count
import Verif.Spec.SharedSpinMutex

/-! Invariants of `shared_spin_mutex`. -/

namespace Verif.SharedSpin

/-- Ownership read off the program counter. -/
def PC.own : PC → Own
  | .owner | .unlocking => .exclusive
  | .sharer | .sharedUnlocking => .shared
  | _ => .none

def Th.isEx (th : Th) : Bool := th.pc.own = .exclusive
def Th.isSh (th : Th) : Bool := th.pc.own = .shared

theorem isEx_of {th : Th} {o : Own} (h : th.pc.own = o) : th.isEx = decide (o = .exclusive) := by
  simp [Th.isEx, h]
theorem isSh_of {th : Th} {o : Own} (h : th.pc.own = o) : th.isSh = decide (o = .shared) := by
  simp [Th.isSh, h]

/-- The word encodes the ownership. -/
def WordOk (w : UInt32) (ths : List Th) : Prop :=
  (ths.countP Th.isEx = 0 ∧ w.toNat = ths.countP Th.isSh ∧ w.toNat ≤ 2 ^ 31) ∨
  (ths.countP Th.isEx = 1 ∧ ths.countP Th.isSh = 0 ∧ w = lockedState)

structure Inv (tr : List Ev) (s : St) : Prop where
  word : WordOk s.word.val s.ths
  works : ∀ e ∈ tr, ∀ j id, workOf e = some (j, id) → ∃ th, s.ths[j]? = some th ∧ id ∈ th.view
  /-- what exclusive sections published is seen by everybody who owns, or waits in the message -/
  pubSh : ∀ (i : Nat) (th : Th), s.ths[i]? = some th → th.isSh = true →
    ∀ id, Published relExOf workOf tr id → id ∈ th.view
  pubEx : ∀ (i : Nat) (th : Th), s.ths[i]? = some th → th.isEx = true →
    ∀ id, Published relAnyOf workOf tr id → id ∈ th.view
  pubMsg : s.ths.countP Th.isEx = 0 → ∀ id, Published relAnyOf workOf tr id → id ∈ s.word.msg

theorem relEx_sub {tr : List Ev} {id : Nat} (h : Published relExOf workOf tr id) : Published relAnyOf workOf tr id := by
  obtain ⟨pre, post, e, j, w, h1, h2, h3, h4⟩ := h
  refine ⟨pre, post, e, j, w, h1, ?_, h3, h4⟩
  cases e <;> simp_all [relExOf, relAnyOf]

theorem inv_init (n : Nat) : Inv [] (init n) where
  word := by
    left
    simp only [init]
    rw [countP_replicate_false (p := Th.isEx) rfl, countP_replicate_false (p := Th.isSh) rfl]
    simp [unlockedState]
  works := by simp
  pubSh := fun _ _ _ _ _ h => absurd h not_published_nil
  pubEx := fun _ _ _ _ _ h => absurd h not_published_nil
  pubMsg := fun _ _ h => absurd h not_published_nil

theorem works_mono {tr : List Ev} {s : St} {t : Nat} {th th' : Th}
    (hth : s.ths[t]? = some th) (hsub : ∀ id, id ∈ th.view → id ∈ th'.view)
    (hw : ∀ e ∈ tr, ∀ j id, workOf e = some (j, id) → ∃ th, s.ths[j]? = some th ∧ id ∈ th.view) :
    ∀ e ∈ tr, ∀ j id, workOf e = some (j, id) → ∃ th, (s.ths.set t th')[j]? = some th ∧ id ∈ th.view := by
  intro e he j id hj
  obtain ⟨x, hx, hid⟩ := hw e he j id hj
  by_cases h : t = j
  · subst h
    rw [hth] at hx; cases hx
    exact ⟨th', get_set_self hth, hsub id hid⟩
  · exact ⟨x, by rw [get_set_ne h]; exact hx, hid⟩

theorem works_snoc {tr : List Ev} {ths : List Th} {e : Ev}
    (hw : ∀ e ∈ tr, ∀ j id, workOf e = some (j, id) → ∃ th, ths[j]? = some th ∧ id ∈ th.view)
    (he : ∀ j id, workOf e = some (j, id) → ∃ th, ths[j]? = some th ∧ id ∈ th.view) :
    ∀ e' ∈ tr ++ [e], ∀ j id, workOf e' = some (j, id) → ∃ th, ths[j]? = some th ∧ id ∈ th.view := by
  intro e' he'
  rcases List.mem_append.mp he' with h | h
  · exact hw e' h
  · simp only [List.mem_singleton] at h; subst h; exact he

/-- A step that touches neither the word nor ownership. -/
theorem inv_local {tr : List Ev} {s : St} {t : Nat} {th th' : Th} {k : Nat} (I : Inv tr s) (hth : s.ths[t]? = some th)
    (hown : th'.pc.own = th.pc.own) (hsub : ∀ id, id ∈ th.view → id ∈ th'.view) :
    Inv tr { s with ths := s.ths.set t th', fresh := k } := by
  have hE : th'.isEx = th.isEx := by simp [Th.isEx, hown]
  have hS : th'.isSh = th.isSh := by simp [Th.isSh, hown]
  have cE := countP_set (p := Th.isEx) (b := th') hth
  have cS := countP_set (p := Th.isSh) (b := th') hth
  rw [hE] at cE
  rw [hS] at cS
  have cE' : (s.ths.set t th').countP Th.isEx = s.ths.countP Th.isEx := by omega
  have cS' : (s.ths.set t th').countP Th.isSh = s.ths.countP Th.isSh := by omega
  constructor
  · have := I.word
    unfold WordOk at this ⊢
    simp only [cE', cS']
    exact this
  · exact works_mono hth hsub I.works
  · intro i x hx ho id hp
    rcases get_set_cases hx with ⟨rfl, rfl⟩ | ⟨_, hx⟩
    · exact hsub id (I.pubSh _ _ hth (by rw [← hS]; exact ho) id hp)
    · exact I.pubSh _ _ hx ho id hp
  · intro i x hx ho id hp
    rcases get_set_cases hx with ⟨rfl, rfl⟩ | ⟨_, hx⟩
    · exact hsub id (I.pubEx _ _ hth (by rw [← hE]; exact ho) id hp)
    · exact I.pubEx _ _ hx ho id hp
  · intro h
    simp only [cE'] at h
    exact I.pubMsg h

/-- Appending an event that releases nothing. -/
theorem inv_emit {tr : List Ev} {s : St} {e : Ev} (I : Inv tr s) (hr : relAnyOf e = none)
    (hw : ∀ j id, workOf e = some (j, id) → ∃ th, s.ths[j]? = some th ∧ id ∈ th.view) : Inv (tr ++ [e]) s := by
  have hr' : relExOf e = none := by cases e <;> simp_all [relExOf, relAnyOf]
  constructor
  · exact I.word
  · exact works_snoc I.works hw
  · intro i x hx ho id hp
    rcases published_snoc hp with h | ⟨j, w, h1, _⟩
    · exact I.pubSh i x hx ho id h
    · rw [hr'] at h1; cases h1
  · intro i x hx ho id hp
    rcases published_snoc hp with h | ⟨j, w, h1, _⟩
    · exact I.pubEx i x hx ho id h
    · rw [hr] at h1; cases h1
  · intro hc id hp
    rcases published_snoc hp with h | ⟨j, w, h1, _⟩
    · exact I.pubMsg hc id h
    · rw [hr] at h1; cases h1

theorem Inv.exCount {tr : List Ev} {s : St} (I : Inv tr s) : s.ths.countP Th.isEx ≤ 1 := by
  rcases I.word with h | h <;> omega

/-- Exclusive acquisition on a word equal to 0. -/
theorem inv_acquireEx {tr : List Ev} {s : St} {t : Nat} {th : Th} (I : Inv tr s) (hth : s.ths[t]? = some th)
    (hown : th.pc.own = .none) (hv : s.word.val = unlockedState) :
    Inv tr { s with word := (s.word.rmw lockOrder th.view lockedState).1,
                    ths := s.ths.set t ⟨.owner, (s.word.rmw lockOrder th.view lockedState).2⟩ } := by
  have hz : s.ths.countP Th.isEx = 0 ∧ s.ths.countP Th.isSh = 0 := by
    rcases I.word with ⟨h1, h2, _⟩ | ⟨_, _, h3⟩
    · rw [hv] at h2; exact ⟨h1, h2.symm⟩
    · rw [hv] at h3; exact absurd h3 (by decide)
  have cE := countP_set (p := Th.isEx) (b := ⟨.owner, (s.word.rmw lockOrder th.view lockedState).2⟩) hth
  have cS := countP_set (p := Th.isSh) (b := ⟨.owner, (s.word.rmw lockOrder th.view lockedState).2⟩) hth
  rw [isEx_of hown, isEx_of (o := .exclusive) rfl] at cE
  rw [isSh_of hown, isSh_of (o := .exclusive) rfl] at cS
  simp only [reduceCtorEq, decide_false, decide_true, b2n_false, b2n_true] at cE cS
  constructor
  · right
    exact ⟨by simp only; omega, by simp only; omega, rfl⟩
  · exact works_mono hth (by intro id hid; simp [Loc.rmw, lockOrder, Order.isAcquire, hid]) I.works
  · intro i x hx ho id hp
    have := countP_pos_of_get (p := Th.isSh) hx ho
    simp only at this
    omega
  · intro i x hx ho id hp
    rcases get_set_cases hx with ⟨rfl, rfl⟩ | ⟨_, hx⟩
    · have := I.pubMsg hz.1 id hp
      simp [Loc.rmw, lockOrder, Order.isAcquire, this]
    · have := countP_pos_of_get (p := Th.isEx) hx ho
      omega
  · intro h
    simp only at h
    omega

theorem inv_releaseEx {tr : List Ev} {s : St} {t : Nat} {th : Th} (I : Inv tr s) (hth : s.ths[t]? = some th)
    (hown : th.pc.own = .exclusive) :
    Inv (tr ++ [.unlocked t]) { s with word := s.word.store unlockOrder th.view unlockedState,
                                       ths := s.ths.set t { th with pc := .idle } } := by
  have hex : th.isEx = true := by simp [Th.isEx, hown]
  have hpos := countP_pos_of_get (p := Th.isEx) hth hex
  have hz : s.ths.countP Th.isEx = 1 ∧ s.ths.countP Th.isSh = 0 := by
    rcases I.word with ⟨h1, _, _⟩ | ⟨h1, h2, _⟩
    · omega
    · exact ⟨h1, h2⟩
  have cE := countP_set (p := Th.isEx) (b := { th with pc := .idle }) hth
  have cS := countP_set (p := Th.isSh) (b := { th with pc := .idle }) hth
  rw [isEx_of hown, isEx_of (o := .none) rfl] at cE
  rw [isSh_of hown, isSh_of (o := .none) rfl] at cS
  simp only [reduceCtorEq, decide_false, decide_true, b2n_false, b2n_true] at cE cS
  have hpub : ∀ id, Published relAnyOf workOf (tr ++ [.unlocked t]) id → id ∈ th.view := by
    intro id hp
    rcases published_snoc hp with h | ⟨j, w, h1, h2, h3⟩
    · exact I.pubEx _ _ hth hex id h
    · simp only [relAnyOf, Option.some.injEq] at h1
      subst h1
      obtain ⟨x, hx, hid⟩ := I.works w h2 _ _ h3
      rw [hth] at hx; cases hx; exact hid
  constructor
  · left
    refine ⟨by simp only; omega, ?_, by simp [Loc.store, unlockedState]⟩
    simp only [Loc.store, unlockedState]
    have : (0 : UInt32).toNat = 0 := rfl
    omega
  · exact works_snoc (works_mono (th' := { th with pc := .idle }) hth (fun _ h => h) I.works)
      (by simp [workOf])
  · intro i x hx ho id hp
    have := countP_pos_of_get (p := Th.isSh) hx ho
    simp only at this
    omega
  · intro i x hx ho id hp
    have := countP_pos_of_get (p := Th.isEx) hx ho
    simp only at this
    omega
  · intro _ id hp
    show id ∈ (if unlockOrder.isRelease = true then th.view else [])
    simp only [unlockOrder, Order.isRelease, if_true]
    exact hpub id hp

theorem masked_lt (v : UInt32) : (masked v).toNat < 2 ^ 31 := by
  unfold masked readerMask
  rw [UInt32.toNat_and]
  have : v.toNat &&& (0x7fffffff : UInt32).toNat ≤ (0x7fffffff : UInt32).toNat := Nat.and_le_right
  have h2 : (0x7fffffff : UInt32).toNat = 2147483647 := rfl
  omega

/-- Shared acquisition on a word equal to the masked value. -/
theorem inv_acquireSh {tr : List Ev} {s : St} {t : Nat} {th : Th} {cur : UInt32} (I : Inv tr s)
    (hth : s.ths[t]? = some th) (hown : th.pc.own = .none) (hv : s.word.val = cur) (hcur : cur.toNat < 2 ^ 31) :
    Inv tr { s with word := (s.word.rmw sharedOrder th.view (cur + 1)).1,
                    ths := s.ths.set t ⟨.sharer, (s.word.rmw sharedOrder th.view (cur + 1)).2⟩ } := by
  have hz : s.ths.countP Th.isEx = 0 ∧ cur.toNat = s.ths.countP Th.isSh := by
    rcases I.word with ⟨h1, h2, _⟩ | ⟨_, _, h3⟩
    · rw [hv] at h2; exact ⟨h1, h2⟩
    · rw [hv] at h3
      rw [h3] at hcur
      exact absurd hcur (by decide)
  have cE := countP_set (p := Th.isEx) (b := ⟨.sharer, (s.word.rmw sharedOrder th.view (cur + 1)).2⟩) hth
  have cS := countP_set (p := Th.isSh) (b := ⟨.sharer, (s.word.rmw sharedOrder th.view (cur + 1)).2⟩) hth
  rw [isEx_of hown, isEx_of (o := .shared) rfl] at cE
  rw [isSh_of hown, isSh_of (o := .shared) rfl] at cS
  simp only [reduceCtorEq, decide_false, decide_true, b2n_false, b2n_true] at cE cS
  have hadd : (cur + 1).toNat = cur.toNat + 1 := by
    rw [UInt32.toNat_add]
    have : (1 : UInt32).toNat = 1 := rfl
    omega
  constructor
  · left
    refine ⟨by simp only; omega, ?_, ?_⟩
    · show (cur + 1).toNat = _
      simp only
      omega
    · show (cur + 1).toNat ≤ _
      omega
  · exact works_mono hth (by intro id hid; simp [Loc.rmw, sharedOrder, Order.isAcquire, hid]) I.works
  · intro i x hx ho id hp
    rcases get_set_cases hx with ⟨rfl, rfl⟩ | ⟨_, hx⟩
    · have := I.pubMsg hz.1 id (relEx_sub hp)
      simp [Loc.rmw, sharedOrder, Order.isAcquire, this]
    · exact I.pubSh i x hx ho id hp
  · intro i x hx ho id hp
    have := countP_pos_of_get (p := Th.isEx) hx ho
    simp only at this
    omega
  · intro _ id hp
    have := I.pubMsg hz.1 id hp
    simp only [Loc.rmw]
    split <;> simp [this]

theorem inv_releaseSh {tr : List Ev} {s : St} {t : Nat} {th : Th} (I : Inv tr s) (hth : s.ths[t]? = some th)
    (hown : th.pc.own = .shared) :
    Inv (tr ++ [.unlockedShared t])
      { s with word := (s.word.rmw sharedUnlockOrder th.view (s.word.val - 1)).1,
               ths := s.ths.set t ⟨.idle, (s.word.rmw sharedUnlockOrder th.view (s.word.val - 1)).2⟩ } := by
  have hsh : th.isSh = true := by simp [Th.isSh, hown]
  have hpos := countP_pos_of_get (p := Th.isSh) hth hsh
  have hz : s.ths.countP Th.isEx = 0 ∧ s.word.val.toNat = s.ths.countP Th.isSh ∧ s.word.val.toNat ≤ 2 ^ 31 := by
    rcases I.word with h | ⟨_, h2, _⟩
    · exact h
    · omega
  have cE := countP_set (p := Th.isEx) (b := ⟨.idle, (s.word.rmw sharedUnlockOrder th.view (s.word.val - 1)).2⟩) hth
  have cS := countP_set (p := Th.isSh) (b := ⟨.idle, (s.word.rmw sharedUnlockOrder th.view (s.word.val - 1)).2⟩) hth
  rw [isEx_of hown, isEx_of (o := .none) rfl] at cE
  rw [isSh_of hown, isSh_of (o := .none) rfl] at cS
  simp only [reduceCtorEq, decide_false, decide_true, b2n_false, b2n_true] at cE cS
  have hsub : (s.word.val - 1).toNat = s.word.val.toNat - 1 := by
    rw [UInt32.toNat_sub_of_le]
    · rfl
    · rw [UInt32.le_iff_toNat_le]
      have : (1 : UInt32).toNat = 1 := rfl
      omega
  constructor
  · left
    refine ⟨by simp only; omega, ?_, ?_⟩
    · show (s.word.val - 1).toNat = _
      simp only
      omega
    · show (s.word.val - 1).toNat ≤ _
      omega
  · exact works_snoc (works_mono hth (by intro id hid; simp [Loc.rmw, sharedUnlockOrder, Order.isAcquire, hid]) I.works)
      (by simp [workOf])
  · intro i x hx ho id hp
    rcases get_set_cases hx with ⟨rfl, rfl⟩ | ⟨_, hx⟩
    · cases ho
    · rcases published_snoc hp with h | ⟨j, w, h1, _⟩
      · exact I.pubSh i x hx ho id h
      · cases h1
  · intro i x hx ho id hp
    have := countP_pos_of_get (p := Th.isEx) hx ho
    simp only at this
    omega
  · intro _ id hp
    simp only [Loc.rmw, sharedUnlockOrder, Order.isAcquire, Order.isRelease, if_true]
    rcases published_snoc hp with h | ⟨j, w, h1, h2, h3⟩
    · exact List.mem_append_left _ (I.pubMsg hz.1 id h)
    · simp only [relAnyOf, Option.some.injEq] at h1
      subst h1
      obtain ⟨x, hx, hid⟩ := I.works w h2 _ _ h3
      rw [hth] at hx; cases hx
      exact List.mem_append_right _ (by simpa using hid)

/-- The values kept between a shared load and its compare-exchange are masked. -/
def LocalOk (th : Th) : Prop :=
  match th.pc with
  | .sharedCas cur | .trySharedCas cur => cur.toNat < 2 ^ 31
  | _ => True

def Locals (s : St) : Prop := ∀ (i : Nat) (th : Th), s.ths[i]? = some th → LocalOk th

theorem locals_init (n : Nat) : Locals (init n) := by
  intro i th h
  cases get_replicate h
  trivial

theorem localOk_ite {c : Prop} [Decidable c] {a b : PC} {v : View} (ha : LocalOk ⟨a, v⟩) (hb : LocalOk ⟨b, v⟩) :
    LocalOk ⟨if c then a else b, v⟩ := by
  split <;> assumption

theorem own_ite {c : Prop} [Decidable c] {a b : PC} {o : Own} (ha : a.own = o) (hb : b.own = o) :
    (if c then a else b).own = o := by
  split <;> assumption

theorem locals_step (s : St) (l : Nat × Act) (s' : St) (es : List Ev)
    (L : Locals s) (h : step s l = some (s', es)) : Locals s' := by
  obtain ⟨t, a⟩ := l
  unfold step at h
  simp only at h
  split at h
  · cases h
  next th hth =>
  obtain ⟨pc, view⟩ := th
  simp only at h
  split at h
  any_goals (first
    | (cases h; exact forall_set L trivial)
    | (cases h; exact forall_set L (masked_lt _))
    | (cases h; exact forall_set L (localOk_ite trivial trivial))
    | (cases h; exact forall_set L (L _ _ hth))
    | (split at h <;> cases h <;> exact forall_set L trivial)
    | cases h)

theorem inv_step (tr : List Ev) (s : St) (l : Nat × Act) (s' : St) (es : List Ev)
    (L : Locals s) (I : Inv tr s) (h : step s l = some (s', es)) : Inv (tr ++ es) s' := by
  obtain ⟨t, a⟩ := l
  unfold step at h
  simp only at h
  split at h
  · cases h
  next th hth =>
  obtain ⟨pc, view⟩ := th
  simp only at h
  have hl := L _ _ hth
  split at h
  any_goals (first
    | (cases h; simp only [List.append_nil]; exact inv_local I hth rfl (fun _ h => h))
    | (cases h; simp only [List.append_nil]; exact inv_local I hth (own_ite rfl rfl) (fun _ h => h)))
  any_goals (
    cases h
    refine inv_emit (inv_local (k := s.fresh + 1) I hth rfl (fun _ h => List.mem_cons_of_mem _ h)) rfl ?_
    intro j id hj
    simp only [workOf, Option.some.injEq, Prod.mk.injEq] at hj
    obtain ⟨rfl, rfl⟩ := hj
    exact ⟨_, get_set_self hth, List.mem_cons_self⟩)
  · split at h
    · next hv =>
      cases h
      exact inv_emit (inv_acquireEx I hth rfl hv) rfl (by simp [workOf])
    · cases h; simp only [List.append_nil]; exact inv_local I hth rfl (fun _ h => h)
  · split at h
    · next hv =>
      cases h
      exact inv_emit (inv_acquireEx I hth rfl hv) rfl (by simp [workOf])
    · cases h; exact inv_emit (inv_local I hth rfl (fun _ h => h)) rfl (by simp [workOf])
  · cases h; exact inv_releaseEx I hth rfl
  · split at h
    · next hv =>
      cases h
      exact inv_emit (inv_acquireSh I hth rfl hv hl) rfl (by simp [workOf])
    · cases h; simp only [List.append_nil]; exact inv_local I hth rfl (fun _ h => h)
  · split at h
    · next hv =>
      cases h
      exact inv_emit (inv_acquireSh I hth rfl hv hl) rfl (by simp [workOf])
    · cases h; exact inv_emit (inv_local I hth rfl (fun _ h => h)) rfl (by simp [workOf])
  · cases h; exact inv_releaseSh I hth rfl
  · cases h

theorem inv_exec {n : Nat} {tr : List Ev} {s : St} (h : Exec step (init n) tr s) : Inv tr s ∧ Locals s :=
  Exec.invariant (fun tr s => Inv tr s ∧ Locals s) ⟨inv_init n, locals_init n⟩
    (fun tr s l s' es I hs => ⟨inv_step tr s l s' es I.2 I.1 hs, locals_step s l s' es I.2 hs⟩) h

theorem ownership_append (tr es : List Ev) (t : Nat) :
    ownership (tr ++ es) t = es.foldl (ownUpd t) (ownership tr t) := by
  simp [ownership, List.foldl_append]

/-- The specification agrees with the program counters. -/
def Agree (tr : List Ev) (s : St) : Prop :=
  ∀ t, ownership tr t = (match s.ths[t]? with | some th => th.pc.own | none => .none)

theorem agree_init (n : Nat) : Agree [] (init n) := by
  intro t
  simp only [ownership, init, List.foldl_nil, List.getElem?_replicate]
  split
  · next h => split at h <;> cases h; rfl
  · rfl

theorem agree_move {tr es : List Ev} {s : St} {w : Loc UInt32} {k : Nat} {t : Nat} {th th' : Th}
    (A : Agree tr s) (hth : s.ths[t]? = some th)
    (hself : es.foldl (ownUpd t) th.pc.own = th'.pc.own)
    (hother : ∀ u b, u ≠ t → es.foldl (ownUpd u) b = b) :
    Agree (tr ++ es) { word := w, ths := s.ths.set t th', fresh := k } := by
  intro u
  rw [ownership_append, A u]
  by_cases h : t = u
  · subst h
    simp only [get_set_self hth, hth, hself]
  · simp only [get_set_ne h, hother u _ (Ne.symm h)]

theorem agree_step (tr : List Ev) (s : St) (l : Nat × Act) (s' : St) (es : List Ev)
    (A : Agree tr s) (h : step s l = some (s', es)) : Agree (tr ++ es) s' := by
  obtain ⟨t, a⟩ := l
  unfold step at h
  simp only at h
  split at h
  · cases h
  next th hth =>
  obtain ⟨pc, view⟩ := th
  simp only at h
  have hne : ∀ u : Nat, u ≠ t → ¬ t = u := fun u hu => Ne.symm hu
  split at h
  all_goals (first
    | (cases h; exact agree_move A hth rfl (fun _ _ _ => rfl))
    | (cases h; refine agree_move A hth ?_ (fun _ _ _ => rfl); exact (own_ite (o := .none) rfl rfl).symm)
    | (cases h; exact agree_move A hth (by simp [ownUpd, PC.own]) (fun u b hu => by simp [ownUpd, hne u hu]))
    | (split at h <;> cases h <;>
        exact agree_move A hth (by simp [ownUpd, PC.own]) (fun u b hu => by simp [ownUpd, hne u hu]))
    | cases h)

theorem agree_exec {n : Nat} {tr : List Ev} {s : St} (h : Exec step (init n) tr s) : Agree tr s :=
  Exec.invariant Agree (agree_init n) agree_step h

theorem Agree.get {tr : List Ev} {s : St} (A : Agree tr s) {t : Nat} (h : ownership tr t ≠ .none) :
    ∃ th, s.ths[t]? = some th ∧ th.pc.own = ownership tr t := by
  have := A t
  split at this
  · next th hth => exact ⟨th, hth, this.symm⟩
  · exact absurd this h

end Verif.SharedSpin
