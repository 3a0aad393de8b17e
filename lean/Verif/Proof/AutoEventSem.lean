import Verif.Base.Count
import Verif.Model.AutoEventSem
import Verif.Spec.ThrownCalls

/-! Counting invariant of the semaphore based auto_reset_event. -/

namespace Verif.AutoSem

open Verif.Atomic (Kind Op Ev One successes signalsCalled)

/-- Waits that returned failure. -/
def failures (tr : List (Ev One)) : Nat := tr.countP (fun e => match e with | .ret _ (.acq _) false => true | _ => false)

/-- Waits that threw. -/
def thrown (tr : List (Ev One)) : Nat := tr.countP Ev.isThrown

/-- Counted in `m_state` and neither successful nor withdrawn. -/
def PC.registered : PC → Bool
  | .wSem _ | .wSub _ => true
  | _ => false

/-- Has decremented `m_state` and not yet posted the semaphore. -/
def PC.posting : PC → Bool
  | .pSem => true
  | _ => false

def PC.posts : PC → Bool
  | .pLoad | .pCas _ | .pSem => true
  | _ => false

def PC.won : PC → Bool
  | .leave (.acq _) true => true
  | _ => false

def PC.lost : PC → Bool
  | .leave (.acq _) false => true
  | _ => false

/-- What `m_state` has too much. -/
def St.excess (s : St) : Int := s.state - s.ths.countP PC.registered + (s.sem + s.ths.countP PC.posting : Nat)

structure Inv (s₀ : St) (tr : List (Ev One)) (s : St) : Prop where
  /-- `m_state` = registered waiters + waits that threw - permits made or about to be made -/
  excess : s.excess = s₀.excess + thrown tr
  /-- permits taken come from posts -/
  count : successes tr + s.ths.countP PC.won + s.sem + s.ths.countP PC.posts ≤
    signalsCalled tr + s₀.sem + s₀.ths.countP PC.won + s₀.ths.countP PC.posts
  cas : ∀ (i : Nat) old, s.ths[i]? = some (.pCas old) → 0 ≤ old

theorem inv_init (n : Nat) : Inv (init n) [] (init n) where
  excess := by
    have : thrown [] = 0 := rfl
    rw [this]
    exact (Int.add_zero _).symm
  count := by
    simp only [init]
    have : successes ([] : List (Ev One)) = 0 := rfl
    rw [this]
    omega
  cas := by intro i old h; have := get_replicate h; cases this

theorem inv_restart {s₀ s : St} {tr : List (Ev One)} (I : Inv s₀ tr s) : Inv s [] s where
  excess := by
    have : thrown [] = 0 := rfl
    rw [this]
    exact (Int.add_zero _).symm
  count := by
    have : successes ([] : List (Ev One)) = 0 := rfl
    rw [this]
    omega
  cas := I.cas

theorem inv_move {s₀ s : St} {tr es : List (Ev One)} {t : Nat} {pc pc' : PC} {st' : Int} {sem' : Nat} (I : Inv s₀ tr s)
    (ht : s.ths[t]? = some pc)
    (h1 : st' - s.state = (b2n pc'.registered : Int) - b2n pc.registered - (sem' - s.sem) -
      (b2n pc'.posting - b2n pc.posting))
    (h2 : successes es + b2n pc'.won + sem' + b2n pc'.posts ≤ signalsCalled es + b2n pc.won + s.sem + b2n pc.posts)
    (h3 : ∀ old, pc' = .pCas old → 0 ≤ old) (h0 : thrown es = 0 := by rfl) :
    Inv s₀ (tr ++ es) ⟨st', sem', s.ths.set t pc'⟩ := by
  have c1 := countP_set (p := PC.registered) (b := pc') ht
  have c2 := countP_set (p := PC.posting) (b := pc') ht
  have c3 := countP_set (p := PC.won) (b := pc') ht
  have c4 := countP_set (p := PC.posts) (b := pc') ht
  have s1 : successes (tr ++ es) = successes tr + successes es := List.countP_append
  have s2 : signalsCalled (tr ++ es) = signalsCalled tr + signalsCalled es := List.countP_append
  constructor
  · have := I.excess
    have s3 : thrown (tr ++ es) = thrown tr + thrown es := List.countP_append
    simp only [St.excess] at this ⊢
    omega
  · have := I.count
    simp only
    omega
  · intro i old h
    rcases get_set_cases h with ⟨_, h'⟩ | ⟨_, h⟩
    · exact h3 old h'.symm
    · exact I.cas i old h

theorem inv_throw {s₀ s : St} {tr : List (Ev One)} {t : Nat} {k : Kind} (I : Inv s₀ tr s) (ht : s.ths[t]? = some (.wSem k)) :
    Inv s₀ (tr ++ [.threw t (.acq k)]) ⟨s.state, s.sem, s.ths.set t .idle⟩ := by
  have c1 := countP_set (p := PC.registered) (b := .idle) ht
  have c2 := countP_set (p := PC.posting) (b := .idle) ht
  have c3 := countP_set (p := PC.won) (b := .idle) ht
  have c4 := countP_set (p := PC.posts) (b := .idle) ht
  change _ + 1 = _ + 0 at c1
  change _ + 0 = _ + 0 at c2
  change _ + 0 = _ + 0 at c3
  change _ + 0 = _ + 0 at c4
  have s1 : successes (tr ++ [.threw t (.acq k)]) = successes tr + 0 := List.countP_append
  have s2 : signalsCalled (tr ++ [.threw t (.acq k)]) = signalsCalled tr + 0 := List.countP_append
  have s3 : thrown (tr ++ [.threw t (.acq k)]) = thrown tr + 1 := List.countP_append
  constructor
  · have := I.excess
    simp only [St.excess] at this ⊢
    omega
  · have := I.count
    simp only
    omega
  · intro i old h
    rcases get_set_cases h with ⟨_, h'⟩ | ⟨_, h⟩
    · cases h'
    · exact I.cas i old h

theorem seen_counts (v : Int) : (seen v).registered = false ∧ (seen v).posting = false ∧ (seen v).won = false ∧
    b2n (seen v).posts ≤ 1 ∧ ∀ old, seen v = .pCas old → 0 ≤ old := by
  unfold seen
  split
  · next h => exact ⟨rfl, rfl, rfl, b2n_le_one _, fun old ho => by cases ho; omega⟩
  · exact ⟨rfl, rfl, rfl, b2n_le_one _, fun old ho => by cases ho⟩

theorem inv_seen {s₀ s : St} {tr : List (Ev One)} {t : Nat} {pc : PC} (I : Inv s₀ tr s) (ht : s.ths[t]? = some pc)
    (h1 : pc.registered = false) (h2 : pc.posting = false) (h4 : pc.posts = true) :
    Inv s₀ (tr ++ []) ⟨s.state, s.sem, s.ths.set t (seen s.state)⟩ := by
  obtain ⟨g1, g2, g3, g4, g5⟩ := seen_counts s.state
  refine inv_move I ht ?_ ?_ g5
  · rw [g1, g2, h1, h2]; simp only [b2n_false]; omega
  · rw [g3, h4]
    have : successes ([] : List (Ev One)) = 0 := rfl
    rw [this]
    simp only [b2n_false, b2n_true]
    omega

theorem inv_step {s₀ s s' : St} {tr es : List (Ev One)} {l : Nat × Act} (I : Inv s₀ tr s)
    (h : step s l = some (s', es)) : Inv s₀ (tr ++ es) s' := by
  obtain ⟨t, a⟩ := l
  unfold step at h
  simp only at h
  split at h
  · cases h
  next pc ht =>
  split at h
  · cases h
    refine inv_move I ht ?_ ?_ (by simp)
    · change _ = (0 : Int) - 0 - _ - (0 - 0); omega
    · change 0 + 0 + _ + 1 ≤ 1 + 0 + _ + 0; omega
  · cases h
    refine inv_move I ht ?_ ?_ (by simp)
    · change _ = (0 : Int) - 0 - _ - (0 - 0); omega
    · change 0 + 0 + _ + 0 ≤ 0 + 0 + _ + 0; omega
  · cases h; exact inv_seen I ht rfl rfl rfl
  · next old =>
    split at h
    · next he =>
      cases h
      refine inv_move I ht ?_ ?_ (by simp)
      · change _ = (0 : Int) - 0 - _ - (1 - 0); omega
      · change 0 + 0 + _ + 1 ≤ 0 + 0 + _ + 1; omega
    · cases h; exact inv_seen I ht rfl rfl rfl
  · cases h; exact inv_seen I ht rfl rfl rfl
  · cases h
    refine inv_move I ht ?_ ?_ (by simp)
    · change _ = (0 : Int) - 0 - _ - (0 - 1); omega
    · change 0 + 0 + _ + 0 ≤ 0 + 0 + _ + 1; omega
  · cases h
    refine inv_move I ht ?_ ?_ (by simp)
    · change _ = (1 : Int) - 0 - _ - (0 - 0); omega
    · change 0 + 0 + _ + 0 ≤ 0 + 0 + _ + 0; omega
  · next k =>
    split at h
    · cases h
      refine inv_move I ht ?_ ?_ (by simp)
      · change _ = (0 : Int) - 1 - _ - (0 - 0); omega
      · change 0 + 1 + _ + 0 ≤ 0 + 0 + _ + 0; omega
    · split at h
      · cases h
        refine inv_move I ht ?_ ?_ (by simp)
        · change _ = (1 : Int) - 1 - _ - (0 - 0); omega
        · change 0 + 0 + _ + 0 ≤ 0 + 0 + _ + 0; omega
      · cases h
  · split at h
    · cases h
      refine inv_move I ht ?_ ?_ (by simp)
      · change _ = (1 : Int) - 1 - _ - (0 - 0); omega
      · change 0 + 0 + _ + 0 ≤ 0 + 0 + _ + 0; omega
    · cases h
  · cases h; exact inv_throw I ht
  · cases h
    refine inv_move I ht ?_ ?_ (by simp)
    · change _ = (0 : Int) - 1 - _ - (0 - 0); omega
    · change 0 + 0 + _ + 0 ≤ 0 + 0 + _ + 0; omega
  · next op res =>
    cases h
    refine inv_move I ht ?_ ?_ (by simp)
    · change _ = (0 : Int) - 0 - _ - (0 - 0); omega
    · cases op with
      | sig x => change 0 + 0 + _ + 0 ≤ 0 + 0 + _ + 0; omega
      | acq k =>
        cases res
        · change 0 + 0 + _ + 0 ≤ 0 + 0 + _ + 0; omega
        · change 1 + 0 + _ + 0 ≤ 0 + 1 + _ + 0; omega
  · cases h

theorem inv_exec {n : Nat} {tr : List (Ev One)} {s : St} (h : Exec step (init n) tr s) : Inv (init n) tr s :=
  h.invariant (Inv (init n)) (inv_init n) (fun _ _ _ _ _ I hs => inv_step I hs)

theorem Inv.state {n : Nat} {tr : List (Ev One)} {s : St} (I : Inv (init n) tr s) :
    s.state = s.ths.countP PC.registered + thrown tr - (s.sem + s.ths.countP PC.posting : Nat) := by
  have h0 : (init n).excess = 0 := by
    simp only [St.excess, init]
    rw [countP_replicate_false rfl, countP_replicate_false rfl]
    rfl
  have := I.excess
  rw [h0] at this
  simp only [St.excess] at this
  omega

/-- From any reachable state on. -/
theorem inv_from {s₀ s₁ s : St} {tr₀ tr : List (Ev One)} (I : Inv s₀ tr₀ s₁) (h : Exec step s₁ tr s) : Inv s₁ tr s :=
  h.invariant (Inv s₁) (inv_restart I) (fun _ _ _ _ _ I hs => inv_step I hs)

/-! ## A lower bound of `m_state` -/

def Low (tr : List (Ev One)) (s : St) : Prop := -1 ≤ s.state + failures tr + s.ths.countP PC.lost

theorem low_move {s : St} {tr es : List (Ev One)} {t : Nat} {pc pc' : PC} {st' : Int} {sem' : Nat} (L : Low tr s)
    (ht : s.ths[t]? = some pc) (h : -1 ≤ s.state + failures tr + s.ths.countP PC.lost →
      -1 + (b2n pc.lost : Int) ≤ st' + failures tr + failures es + s.ths.countP PC.lost + b2n pc'.lost) :
    Low (tr ++ es) ⟨st', sem', s.ths.set t pc'⟩ := by
  have c1 := countP_set (p := PC.lost) (b := pc') ht
  have s1 : failures (tr ++ es) = failures tr + failures es := List.countP_append
  have := h L
  simp only [Low]
  omega

theorem low_step {s₀ s s' : St} {tr es : List (Ev One)} {l : Nat × Act} (I : Inv s₀ tr s) (L : Low tr s)
    (h : step s l = some (s', es)) : Low (tr ++ es) s' := by
  obtain ⟨t, a⟩ := l
  unfold step at h
  simp only at h
  split at h
  · cases h
  next pc ht =>
  have hseen : (seen s.state).lost = false := by unfold seen; split <;> rfl
  split at h
  · cases h; refine low_move L ht ?_; change _ → -1 + 0 ≤ _ + _ + 0 + _ + 0; omega
  · cases h; refine low_move L ht ?_; change _ → -1 + 0 ≤ _ + _ + 0 + _ + 0; omega
  · cases h; refine low_move L ht ?_; rw [hseen]; change _ → -1 + 0 ≤ _ + _ + 0 + _ + 0; omega
  · next old =>
    split at h
    · next he =>
      cases h
      have := I.cas t _ ht
      refine low_move L ht ?_; change _ → -1 + 0 ≤ _ + _ + 0 + _ + 0; omega
    · cases h; refine low_move L ht ?_; rw [hseen]; change _ → -1 + 0 ≤ _ + _ + 0 + _ + 0; omega
  · cases h; refine low_move L ht ?_; rw [hseen]; change _ → -1 + 0 ≤ _ + _ + 0 + _ + 0; omega
  · cases h; refine low_move L ht ?_; change _ → -1 + 0 ≤ _ + _ + 0 + _ + 0; omega
  · cases h; refine low_move L ht ?_; change _ → -1 + 0 ≤ _ + _ + 0 + _ + 0; omega
  · split at h
    · cases h; refine low_move L ht ?_; change _ → -1 + 0 ≤ _ + _ + 0 + _ + 0; omega
    · split at h
      · cases h; refine low_move L ht ?_; change _ → -1 + 0 ≤ _ + _ + 0 + _ + 0; omega
      · cases h
  · split at h
    · cases h; refine low_move L ht ?_; change _ → -1 + 0 ≤ _ + _ + 0 + _ + 0; omega
    · cases h
  · cases h; refine low_move L ht ?_; change _ → -1 + 0 ≤ _ + _ + 0 + _ + 0; omega
  · cases h; refine low_move L ht ?_; change _ → -1 + 0 ≤ _ + _ + 0 + _ + 1; omega
  · next op res =>
    cases h
    refine low_move L ht ?_
    cases op with
    | sig x => change _ → -1 + 0 ≤ _ + _ + 0 + _ + 0; omega
    | acq k =>
      cases res
      · change _ → -1 + 1 ≤ _ + _ + 1 + _ + 0; omega
      · change _ → -1 + 0 ≤ _ + _ + 0 + _ + 0; omega
  · cases h

theorem low_exec {n : Nat} {tr : List (Ev One)} {s : St} (h : Exec step (init n) tr s) : Low tr s := by
  have : Inv (init n) tr s ∧ Low tr s := by
    refine h.invariant (fun tr s => Inv (init n) tr s ∧ Low tr s) ⟨inv_init n, ?_⟩ ?_
    · simp only [Low, init]
      rw [countP_replicate_false rfl]
      decide
    · intro tr s l s' es ⟨I, L⟩ hs
      exact ⟨inv_step I hs, low_step I L hs⟩
  exact this.2

end Verif.AutoSem
