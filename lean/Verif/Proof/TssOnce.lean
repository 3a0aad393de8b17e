import Verif.Base.Count
import Verif.Spec.TssOnce

/-! Invariants of `init_tss_once`. -/

namespace Verif.TssOnce

/-- The steps of `step` as a relation. -/
inductive LStep (s : St) (t : Nat) : PC → St → List Ev → Prop
  | call : LStep s t .idle { s with ths := s.ths.set t .load } []
  | loadDone : s.flag = 2 → LStep s t .load { s with ths := s.ths.set t .ready } []
  | loadElse : LStep s t .load { s with ths := s.ths.set t .cas } []
  | casBegin : s.flag = 0 → LStep s t .cas { s with flag := 1, ths := s.ths.set t .construct } [.began t]
  | casDone : s.flag = 2 → LStep s t .cas { s with ths := s.ths.set t .ready } []
  | casSpin : s.flag ≠ 0 → s.flag ≠ 2 → LStep s t .cas { s with ths := s.ths.set t .cas } []
  | construct {p : Nat} : p ≠ 0 → LStep s t .construct { s with mgr := p, ths := s.ths.set t .tls } []
  | abort1 : LStep s t .construct { s with aborted := true } [.aborted t]
  | tls : LStep s t .tls { s with ths := s.ths.set t .publish } []
  | abort2 : LStep s t .tls { s with aborted := true } [.aborted t]
  | publish : LStep s t .publish { s with flag := 2, ths := s.ths.set t .ready } [.done t s.mgr]
  | ready : LStep s t .ready { s with ths := s.ths.set t .idle } [.proceeded t s.mgr]

theorem step_lstep {s s' : St} {t : Nat} {a : Act} {es : List Ev} (h : step s (t, a) = some (s', es)) :
    s.aborted = false ∧ ∃ pc, s.ths[t]? = some pc ∧ LStep s t pc s' es := by
  unfold step at h
  simp only at h
  split at h
  · cases h
  next hab =>
  refine ⟨by simpa using hab, ?_⟩
  split at h
  · cases h
  next pc ht =>
  refine ⟨pc, ht, ?_⟩
  split at h
  · cases h; exact .call
  · split at h
    · next hf => cases h; exact .loadDone hf
    · cases h; exact .loadElse
  · cases h; exact .loadElse
  · split at h
    · next hf => cases h; exact .casBegin hf
    · next h0 =>
      split at h
      · next hf => cases h; exact .casDone hf
      · next h2 => cases h; exact .casSpin h0 h2
  · split at h
    · cases h
    · next hp => cases h; exact .construct hp
  · cases h; exact .abort1
  · cases h; exact .tls
  · cases h; exact .abort2
  · cases h; exact .publish
  · cases h; exact .ready
  · cases h

/-- Between the exchange to 1 and the one to 2. -/
def PC.crit : PC → Bool
  | .construct | .tls | .publish => true
  | _ => false

def Rel (s : St) : Once.Ph Nat → Prop
  | .fresh => s.flag = 0
  | .running _ => s.flag = 1
  | .complete p => s.flag = 2 ∧ s.mgr = p ∧ p ≠ 0

structure PInv (s : St) (p : Once.Ph Nat) : Prop where
  rel : Rel s p
  crit : ∀ (i : Nat) (pc : PC), s.ths[i]? = some pc → pc.crit = true → p = .running i
  built : ∀ (i : Nat) (pc : PC), s.ths[i]? = some pc → pc = .tls ∨ pc = .publish → s.mgr ≠ 0
  ready : ∀ (i : Nat), s.ths[i]? = some .ready → ∃ k, p = .complete k
  run : ∀ (i : Nat), p = .running i → ∃ pc, s.ths[i]? = some pc ∧ pc.crit = true

def Inv (tr : List Ev) (s : St) : Prop := ∃ p, Once.after (tr.filterMap seen) = some p ∧ PInv s p

theorem inv_init (n : Nat) : Inv [] (init n) := by
  refine ⟨.fresh, rfl, ⟨rfl, ?_, ?_, ?_, ?_⟩⟩
  · intro i pc h hc; rw [get_replicate h] at hc; cases hc
  · intro i pc h hc; rw [get_replicate h] at hc; simp at hc
  · intro i h; cases get_replicate h
  · intro i h; cases h

theorem after_append {es fs : List (Once.Ev Nat)} :
    Once.after (es ++ fs) = fs.foldl (fun p e => p.bind fun p => Once.next p e) (Once.after es) := by
  simp [Once.after, List.foldl_append]

/-- A thread moves without an event. -/
theorem pinv_move {s : St} {p : Once.Ph Nat} {t : Nat} {pc pc' : PC} {m : Nat} (P : PInv s p)
    (ht : s.ths[t]? = some pc) (hm : m = s.mgr ∨ pc.crit = true ∧ m ≠ 0) (hcrit : pc'.crit = pc.crit)
    (hb : pc' = .tls ∨ pc' = .publish → m ≠ 0) (hready : pc' = .ready → s.flag = 2) :
    PInv { s with mgr := m, ths := s.ths.set t pc' } p := by
  have hrel : Rel { s with mgr := m, ths := s.ths.set t pc' } p := by
    have hr := P.rel
    cases p with
    | fresh => exact hr
    | running i => exact hr
    | complete k =>
      rcases hm with hm | ⟨hc, _⟩
      · exact ⟨hr.1, hm.trans hr.2.1, hr.2.2⟩
      · have := P.crit t pc ht hc; cases this
  refine ⟨hrel, ?_, ?_, ?_, ?_⟩
  · intro i q hq hc
    rcases get_set_cases hq with ⟨rfl, rfl⟩ | ⟨_, hq⟩
    · exact P.crit _ _ ht (hcrit ▸ hc)
    · exact P.crit _ _ hq hc
  · intro i q hq hc
    rcases get_set_cases hq with ⟨rfl, rfl⟩ | ⟨_, hq⟩
    · exact hb hc
    · rcases hm with hm | ⟨_, hm⟩
      · rw [hm]; exact P.built i q hq hc
      · exact hm
  · intro i hq
    rcases get_set_cases hq with ⟨rfl, h⟩ | ⟨_, hq⟩
    · have hf := hready h.symm
      have hr := P.rel
      cases p with
      | fresh => simp only [Rel] at hr; omega
      | running i => simp only [Rel] at hr; omega
      | complete k => exact ⟨k, rfl⟩
    · exact P.ready _ hq
  · intro i hp
    obtain ⟨q, hq, hc⟩ := P.run i hp
    by_cases hi : t = i
    · subst hi
      rw [ht] at hq
      cases hq
      exact ⟨pc', get_set_self ht, by rw [hcrit]; exact hc⟩
    · exact ⟨q, by simp only; rw [get_set_ne hi]; exact hq, hc⟩

theorem step_inv (tr : List Ev) (s : St) (l : Nat × Act) (s' : St) (es : List Ev)
    (I : Inv tr s) (h : step s l = some (s', es)) : Inv (tr ++ es) s' := by
  obtain ⟨t, a⟩ := l
  obtain ⟨_, pc, ht, hl⟩ := step_lstep h
  obtain ⟨p, hp, P⟩ := I
  unfold Inv
  rw [List.filterMap_append]
  cases hl with
  | call => exact ⟨p, by simpa using hp, pinv_move P ht (Or.inl rfl) rfl (by simp) (by simp)⟩
  | loadDone hf => exact ⟨p, by simpa using hp, pinv_move P ht (Or.inl rfl) rfl (by simp) (fun _ => hf)⟩
  | loadElse => exact ⟨p, by simpa using hp, pinv_move P ht (Or.inl rfl) rfl (by simp) (by simp)⟩
  | casBegin hf =>
    have hr := P.rel
    have hp' : p = .fresh := by
      cases p with
      | fresh => rfl
      | running i => simp only [Rel] at hr; omega
      | complete k => simp only [Rel] at hr; omega
    subst hp'
    refine ⟨.running t, by rw [after_append, hp]; simp [seen, Once.next], ⟨rfl, ?_, ?_, ?_, ?_⟩⟩
    · intro i q hq hc
      rcases get_set_cases hq with ⟨rfl, rfl⟩ | ⟨_, hq⟩
      · rfl
      · have := P.crit i q hq hc; cases this
    · intro i q hq hc
      rcases get_set_cases hq with ⟨rfl, rfl⟩ | ⟨_, hq⟩
      · simp at hc
      · exact P.built i q hq hc
    · intro i hq
      rcases get_set_cases hq with ⟨rfl, h⟩ | ⟨_, hq⟩
      · cases h
      · obtain ⟨k, hk⟩ := P.ready i hq; cases hk
    · intro i hi
      cases hi
      exact ⟨_, get_set_self ht, rfl⟩
  | casDone hf => exact ⟨p, by simpa using hp, pinv_move P ht (Or.inl rfl) rfl (by simp) (fun _ => hf)⟩
  | casSpin h0 h2 => exact ⟨p, by simpa using hp, pinv_move P ht (Or.inl rfl) rfl (by simp) (by simp)⟩
  | construct hne =>
    exact ⟨p, by simpa using hp, pinv_move P ht (Or.inr ⟨rfl, hne⟩) rfl (fun _ => hne) (by simp)⟩
  | abort1 => exact ⟨p, by rw [show [Ev.aborted t].filterMap seen = [] from rfl]; simpa using hp, ⟨P.rel, P.crit, P.built, P.ready, P.run⟩⟩
  | tls =>
    exact ⟨p, by simpa using hp, pinv_move P ht (Or.inl rfl) rfl (fun _ => P.built t _ ht (Or.inl rfl)) (by simp)⟩
  | abort2 => exact ⟨p, by rw [show [Ev.aborted t].filterMap seen = [] from rfl]; simpa using hp, ⟨P.rel, P.crit, P.built, P.ready, P.run⟩⟩
  | publish =>
    have := P.crit t _ ht rfl
    subst this
    have hb := P.built t _ ht (Or.inr rfl)
    refine ⟨.complete s.mgr, by rw [after_append, hp]; simp [seen, Once.next], ⟨⟨rfl, rfl, hb⟩, ?_, ?_, ?_, ?_⟩⟩
    · intro i q hq hc
      rcases get_set_cases hq with ⟨rfl, rfl⟩ | ⟨hne, hq⟩
      · cases hc
      · have := P.crit i q hq hc; cases this; exact absurd rfl hne
    · intro i q hq hc; exact hb
    · intro i hq; exact ⟨_, rfl⟩
    · intro i hi; cases hi
  | ready =>
    obtain ⟨k, hk⟩ := P.ready t ht
    subst hk
    refine ⟨.complete k, ?_, pinv_move P ht (Or.inl rfl) rfl (by simp) (by simp)⟩
    have := P.rel.2.1
    rw [after_append, hp]; simp [seen, Once.next, this]

theorem exec_inv {n : Nat} {tr : List Ev} {s : St} (h : Exec step (init n) tr s) : Inv tr s :=
  h.invariant Inv (inv_init n) step_inv

end Verif.TssOnce
