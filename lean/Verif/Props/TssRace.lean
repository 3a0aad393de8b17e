import Verif.Base.Count
import Verif.Model.TssRace

/-! C72: data races inside the TSS manager. -/

namespace Verif.TssRace

/-! ## Specification -/

/-- The location accessed, and whether it is written. -/
def Micro.access : Micro → Option (Loc × Bool)
  | .lock | .unlock => none
  | .rd l => some (l, false)
  | .wr l => some (l, true)
  | .enlist | .delist => some (.list, true)
  | .visit => some (.list, false)
  | .free t => some (.storage t, true)

/-- Thread `i` is about to access `l`; `w` says whether it writes. -/
def About (s : St) (i : Nat) (m : Micro) (l : Loc) (w : Bool) : Prop :=
  ∃ th r, s.ths[i]? = some th ∧ th.todo = m :: r ∧ m.access = some (l, w)

/-- Two threads are about to access `l`, at least one of them to write. -/
def Race (s : St) (i j : Nat) (m m' : Micro) (l : Loc) : Prop :=
  i ≠ j ∧ ∃ w w', About s i m l w ∧ About s j m' l w' ∧ (w = true ∨ w' = true)

/-! ## Proofs -/

/-- No access to the storage of another thread. -/
def ownOnly (t : Nat) : Micro → Bool
  | .rd (.storage u) | .wr (.storage u) => u == t
  | _ => true

/-- The rest of a function of thread `t`, entered with or without the mutex. -/
def wf (t : Nat) : Bool → List Micro → Bool
  | h, [] => !h
  | true, .unlock :: r => wf t false r
  | true, .lock :: _ => false
  | true, .free _ :: _ => false
  | true, _ :: r => wf t true r
  | false, .lock :: r => r.all (ownOnly t) && wf t true r
  | false, .rd .table :: r => wf t false r
  | false, .rd (.storage u) :: r => u == t && wf t false r
  | false, .wr (.storage u) :: r => u == t && wf t false r
  | false, .free u :: r => u == t && r.isEmpty
  | false, _ :: _ => false

/-- An access to the storage of another thread. -/
def foreign (t u : Nat) : Micro → Bool
  | .rd (.storage v) | .wr (.storage v) => v == u && v != t
  | _ => false

theorem own_foreign {t u : Nat} {m : Micro} (h : ownOnly t m = true) : foreign t u m = false := by
  cases m with
  | rd l => cases l <;> simp_all [ownOnly, foreign]
  | wr l => cases l <;> simp_all [ownOnly, foreign]
  | _ => rfl

/-- Outside the mutex there is nothing foreign ahead. -/
theorem wf_own {t : Nat} {r : List Micro} (h : wf t false r = true) : r.all (ownOnly t) = true := by
  induction r with
  | nil => rfl
  | cons m r ih =>
    cases m with
    | lock => simp only [wf, Bool.and_eq_true] at h; simpa [ownOnly] using h.1
    | rd l => cases l <;> simp_all [wf, ownOnly]
    | wr l => cases l <;> simp_all [wf, ownOnly]
    | free v => simp_all [wf, ownOnly]
    | _ => simp [wf] at h

theorem wf_no_foreign {t u : Nat} {r : List Micro} (h : wf t false r = true) : r.any (foreign t u) = false := by
  rw [List.any_eq_false]
  intro m hm
  have := List.all_eq_true.mp (wf_own h) m hm
  simp [own_foreign this]

structure TInv (s : St) (i : Nat) (th : Th) : Prop where
  wf : wf i (s.owner == some i) th.todo = true
  fin : Micro.free i ∈ th.todo → Micro.delist ∉ th.todo → th.ctx = false
  ent : Micro.enlist ∈ th.todo → Micro.free i ∉ th.todo
  visit : ∀ u, th.todo.any (foreign i u) = true → s.owner = some i ∧ ∃ th', s.ths[u]? = some th' ∧ th'.ctx = true

def Inv (s : St) : Prop := ∀ (i : Nat) (th : Th), s.ths[i]? = some th → TInv s i th

theorem inv_init (n : Nat) : Inv (init n) := by
  intro i th h
  rw [get_replicate h]
  refine ⟨rfl, ?_, ?_, ?_⟩ <;> simp

theorem mem_listed {ths : List Th} {u : Nat} (h : u ∈ listed ths) : ∃ th, ths[u]? = some th ∧ th.ctx = true := by
  unfold listed at h
  rw [List.mem_filter] at h
  obtain ⟨_, h⟩ := h
  split at h
  · next th ht => exact ⟨th, ht, h⟩
  · cases h

theorem wf_visit {t : Nat} {us : List Nat} {r : List Micro} (h : wf t true r = true) :
    wf t true (us.flatMap visitOne ++ r) = true := by
  induction us with
  | nil => exact h
  | cons u us ih => simpa [List.flatMap_cons, visitOne, wf] using ih

theorem wf_table {t n : Nat} {r : List Micro} (h : wf t false r = true) :
    wf t false (List.replicate n (.rd .table) ++ r) = true := by
  induction n with
  | zero => exact h
  | succ n ih => simpa [List.replicate_succ, wf] using ih

/-- A thread moves; the mutex and the list stay as they are. -/
theorem inv_move {s : St} {t : Nat} {th th' : Th} (I : Inv s) (ht : s.ths[t]? = some th) (hc : th'.ctx = th.ctx)
    (T : TInv s t th') : Inv { s with ths := s.ths.set t th' } := by
  intro i q hq
  have keep : ∀ {u : Nat} {a : Th}, s.ths[u]? = some a → a.ctx = true →
      ∃ b, (s.ths.set t th')[u]? = some b ∧ b.ctx = true := by
    intro u a ha hac
    by_cases hu : t = u
    · subst hu
      rw [ht] at ha
      cases ha
      exact ⟨th', get_set_self ht, by rw [hc]; exact hac⟩
    · exact ⟨a, by rw [get_set_ne hu]; exact ha, hac⟩
  rcases get_set_cases hq with ⟨rfl, rfl⟩ | ⟨_, hq⟩
  · refine ⟨T.wf, T.fin, T.ent, fun u hu => ?_⟩
    obtain ⟨h1, a, ha, hac⟩ := T.visit u hu
    exact ⟨h1, keep ha hac⟩
  · have Q := I i q hq
    refine ⟨Q.wf, Q.fin, Q.ent, fun u hu => ?_⟩
    obtain ⟨h1, a, ha, hac⟩ := Q.visit u hu
    exact ⟨h1, keep ha hac⟩

/-- Dropping the access just made. -/
theorem tinv_tail {s : St} {t : Nat} {th : Th} {m : Micro} {r : List Micro} (T : TInv s t th) (htodo : th.todo = m :: r)
    (hw : wf t (s.owner == some t) r = true) (hm : m ≠ .delist) : TInv s t { th with todo := r } := by
  have hd : Micro.delist ∈ m :: r ↔ Micro.delist ∈ r := by simp [Ne.symm hm]
  refine ⟨hw, fun h1 h2 => T.fin (by rw [htodo]; exact List.mem_cons_of_mem _ h1) (by rw [htodo, hd]; exact h2), ?_, ?_⟩
  · intro h1 h2
    exact T.ent (by rw [htodo]; exact List.mem_cons_of_mem _ h1) (by rw [htodo]; exact List.mem_cons_of_mem _ h2)
  · intro u hu
    exact T.visit u (by rw [htodo, List.any_cons, hu]; simp)

/-- A function that is begun. -/
theorem tinv_call {s : St} {t : Nat} {th : Th} {code : List Micro} (T : TInv s t th) (htodo : th.todo = [])
    (hw : wf t false code = true) (hf : Micro.free t ∈ code → Micro.delist ∈ code)
    (he : Micro.enlist ∈ code → Micro.free t ∉ code) :
    TInv s t { th with todo := code } := by
  have ho : (s.owner == some t) = false := by
    have := T.wf
    rw [htodo] at this
    cases h : (s.owner == some t) with
    | false => rfl
    | true => rw [h] at this; cases this
  refine ⟨by rw [ho]; exact hw, fun h1 h2 => absurd (hf h1) h2, he, fun u hu => ?_⟩
  simp only at hu
  rw [wf_no_foreign hw] at hu
  cases hu

theorem step_inv (s : St) (l : Nat × Act) (s' : St) (es : List Unit) (I : Inv s) (h : step s l = some (s', es)) :
    Inv s' := by
  obtain ⟨t, a⟩ := l
  unfold step at h
  simp only at h
  split at h
  · cases h
  next th ht =>
  have T := I t th ht
  split at h
  · next hn =>
    cases h
    refine inv_move I ht rfl (tinv_call T hn ?_ ?_ ?_) <;> cases th.ctx <;> simp [getCode, wf]
  · next hn =>
    cases h
    refine inv_move I ht rfl (tinv_call T hn ?_ ?_ ?_) <;> cases th.ctx <;> simp [setCode, wf, ownOnly]
  · next hn =>
    cases h
    refine inv_move I ht rfl (tinv_call T hn ?_ ?_ ?_) <;> simp [newCode, wf, ownOnly]
  · next hn =>
    cases h
    refine inv_move I ht rfl (tinv_call T hn ?_ ?_ ?_) <;> simp [deleteCode, wf, ownOnly]
  · next n hn =>
    cases h
    refine inv_move I ht rfl (tinv_call T hn ?_ ?_ ?_)
    · cases th.ctx
      · rfl
      · have := wf_table (t := t) (n := n) (r := [.lock, .delist, .unlock, .free t]) (by simp [wf, ownOnly])
        simpa [exitCode, wf] using this
    · cases th.ctx <;> simp [exitCode]
    · cases th.ctx <;> simp [exitCode]
  · next r hr =>
    split at h
    · next ho =>
      cases h
      -- nobody has foreign accesses
      have hnone : ∀ (i : Nat) (q : Th), s.ths[i]? = some q → ∀ u, q.todo.any (foreign i u) = false := by
        intro i q hq u
        cases hu : q.todo.any (foreign i u) with
        | false => rfl
        | true => have := ((I i q hq).visit u hu).1; rw [ho] at this; cases this
      have hw := T.wf
      rw [hr, ho] at hw
      intro i q hq
      rcases get_set_cases hq with ⟨rfl, rfl⟩ | ⟨hne, hq⟩
      · refine ⟨by simp [wf] at hw; simpa using hw.2, ?_, ?_, ?_⟩
        · intro h1 h2
          exact T.fin (by rw [hr]; exact List.mem_cons_of_mem _ h1) (by rw [hr]; simpa using h2)
        · intro h1 h2
          exact T.ent (by rw [hr]; exact List.mem_cons_of_mem _ h1) (by rw [hr]; exact List.mem_cons_of_mem _ h2)
        · intro u hu
          have := hnone t th ht u
          simp only [hr, List.any_cons, Bool.or_eq_false_iff] at this
          simp only at hu
          rw [this.2] at hu
          cases hu
      · have Q := I i q hq
        refine ⟨?_, Q.fin, Q.ent, ?_⟩
        · have h1 := Q.wf
          rw [ho] at h1
          have h2 : ((some t : Option Nat) == some i) = false := by simp [hne]
          simp only [h2]
          simpa using h1
        · intro u hu
          rw [hnone i q hq u] at hu
          cases hu
    · cases h
  · next r hr =>
    cases h
    have hw := T.wf
    rw [hr] at hw
    have ho : s.owner = some t := by
      cases h : (s.owner == some t) with
      | false => rw [h] at hw; simp [wf] at hw
      | true => simpa using h
    rw [ho] at hw
    have hw : wf t false r = true := by simpa [wf] using hw
    intro i q hq
    rcases get_set_cases hq with ⟨rfl, rfl⟩ | ⟨hne, hq⟩
    · refine ⟨by simpa using hw, ?_, ?_, ?_⟩
      · intro h1 h2
        exact T.fin (by rw [hr]; exact List.mem_cons_of_mem _ h1) (by rw [hr]; simpa using h2)
      · intro h1 h2
        exact T.ent (by rw [hr]; exact List.mem_cons_of_mem _ h1) (by rw [hr]; exact List.mem_cons_of_mem _ h2)
      · intro u hu
        simp only at hu
        rw [wf_no_foreign hw] at hu
        cases hu
    · have Q := I i q hq
      refine ⟨?_, Q.fin, Q.ent, ?_⟩
      · have h1 := Q.wf
        rw [ho] at h1
        have h2 : ((some t : Option Nat) == some i) = false := by simp [hne]
        rw [h2] at h1
        simpa using h1
      · intro u hu
        have := (Q.visit u hu).1
        rw [ho] at this
        cases this
        exact absurd rfl hne
  · next l r hr =>
    cases h
    refine inv_move I ht rfl (tinv_tail T hr ?_ (by simp))
    have hw := T.wf
    rw [hr] at hw
    cases ho : (s.owner == some t) <;> rw [ho] at hw <;> cases l <;> simp_all [wf]
  · next l r hr =>
    cases h
    refine inv_move I ht rfl (tinv_tail T hr ?_ (by simp))
    have hw := T.wf
    rw [hr] at hw
    cases ho : (s.owner == some t) <;> rw [ho] at hw <;> cases l <;> simp_all [wf]
  · next r hr =>
    cases h
    have hw := T.wf
    rw [hr] at hw
    have hn : Micro.free t ∉ r := fun h => T.ent (by rw [hr]; simp) (by rw [hr]; exact List.mem_cons_of_mem _ h)
    have hw' : wf t (s.owner == some t) r = true := by
      cases ho : (s.owner == some t) <;> rw [ho] at hw <;> simp_all [wf]
    intro i q hq
    have keep : ∀ {u : Nat} {a : Th}, s.ths[u]? = some a → a.ctx = true →
        ∃ b, (s.ths.set t { todo := r, ctx := true })[u]? = some b ∧ b.ctx = true := by
      intro u a ha hac
      by_cases hu : t = u
      · subst hu
        exact ⟨_, get_set_self ht, rfl⟩
      · exact ⟨a, by rw [get_set_ne hu]; exact ha, hac⟩
    rcases get_set_cases hq with ⟨rfl, rfl⟩ | ⟨_, hq⟩
    · refine ⟨hw', fun h => absurd h hn, fun _ => hn, fun u hu => ?_⟩
      obtain ⟨h1, a, ha, hac⟩ := T.visit u (by rw [hr, List.any_cons, hu]; simp)
      exact ⟨h1, keep ha hac⟩
    · have Q := I i q hq
      refine ⟨Q.wf, Q.fin, Q.ent, fun u hu => ?_⟩
      obtain ⟨h1, a, ha, hac⟩ := Q.visit u hu
      exact ⟨h1, keep ha hac⟩
  · next r hr =>
    cases h
    have hw := T.wf
    rw [hr] at hw
    have ho : s.owner = some t := by
      cases h : (s.owner == some t) with
      | false => rw [h] at hw; simp [wf] at hw
      | true => simpa using h
    rw [ho] at hw
    have hw : wf t true r = true := by simpa [wf] using hw
    intro i q hq
    rcases get_set_cases hq with ⟨rfl, rfl⟩ | ⟨hne, hq⟩
    · refine ⟨by rw [ho]; simpa using hw, fun _ _ => rfl, ?_, ?_⟩
      · intro h1 h2
        exact T.ent (by rw [hr]; exact List.mem_cons_of_mem _ h1) (by rw [hr]; exact List.mem_cons_of_mem _ h2)
      · intro u hu
        obtain ⟨h1, a, ha, hac⟩ := T.visit u (by rw [hr, List.any_cons, hu]; simp)
        refine ⟨h1, a, ?_, hac⟩
        simp only
        rw [get_set_ne]
        · exact ha
        · rintro rfl
          obtain ⟨m, _, hm⟩ := List.any_eq_true.mp hu
          cases m with
          | rd l => cases l <;> simp [foreign] at hm
          | wr l => cases l <;> simp [foreign] at hm
          | _ => cases hm
    · have Q := I i q hq
      refine ⟨Q.wf, Q.fin, Q.ent, fun u hu => ?_⟩
      have := (Q.visit u hu).1
      rw [ho] at this
      cases this
      exact absurd rfl hne
  · next r hr =>
    cases h
    have hw := T.wf
    rw [hr] at hw
    have ho : s.owner = some t := by
      cases h : (s.owner == some t) with
      | false => rw [h] at hw; simp [wf] at hw
      | true => simpa using h
    rw [ho] at hw
    have hw : wf t true r = true := by simpa [wf] using hw
    have T' := tinv_tail T hr (by rw [ho]; simpa using hw) (by simp)
    have hvis : ∀ m ∈ (listed s.ths).flatMap visitOne, ∃ u ∈ listed s.ths, m = .rd (.storage u) ∨ m = .wr (.storage u) := by
      intro m hm
      rw [List.mem_flatMap] at hm
      obtain ⟨u, hu, hm⟩ := hm
      exact ⟨u, hu, by simpa [visitOne] using hm⟩
    have hin : ∀ m, (∀ u, m ≠ .rd (.storage u) ∧ m ≠ .wr (.storage u)) →
        (m ∈ (listed s.ths).flatMap visitOne ++ r ↔ m ∈ r) := by
      intro m hm
      rw [List.mem_append]
      constructor
      · rintro (h | h)
        · obtain ⟨u, _, h | h⟩ := hvis m h
          · exact absurd h (hm u).1
          · exact absurd h (hm u).2
        · exact h
      · exact Or.inr
    refine inv_move I ht rfl ⟨?_, ?_, ?_, ?_⟩
    · rw [ho]; simpa using wf_visit hw
    · intro h1 h2
      exact T'.fin ((hin _ (by simp)).mp h1) (fun h => h2 ((hin _ (by simp)).mpr h))
    · intro h1 h2
      exact T'.ent ((hin _ (by simp)).mp h1) ((hin _ (by simp)).mp h2)
    · intro u hu
      refine ⟨ho, ?_⟩
      simp only [List.any_append, Bool.or_eq_true] at hu
      rcases hu with hu | hu
      · obtain ⟨m, hm, hf⟩ := List.any_eq_true.mp hu
        obtain ⟨v, hv, h | h⟩ := hvis m hm
        · subst h
          simp [foreign] at hf
          rw [← hf.1]
          exact mem_listed hv
        · subst h
          simp [foreign] at hf
          rw [← hf.1]
          exact mem_listed hv
      · exact (T'.visit u hu).2
  · next u r hr =>
    cases h
    refine inv_move I ht rfl (tinv_tail T hr ?_ (by simp))
    have hw := T.wf
    rw [hr] at hw
    cases ho : (s.owner == some t) <;> rw [ho] at hw <;> simp_all [wf]
  · cases h

theorem exec_inv {n : Nat} {s : St} (h : Reachable step (init n) s) : Inv s :=
  h.invariant Inv (inv_init n) step_inv

/-- What a thread may be about to do without the mutex. -/
theorem unlocked {s : St} {i : Nat} {m : Micro} {l : Loc} {w : Bool} (I : Inv s) (h : About s i m l w)
    (ho : s.owner ≠ some i) : m = .rd .table ∨ l = .storage i := by
  obtain ⟨th, r, ht, hr, ha⟩ := h
  have hw := (I i th ht).wf
  have ho : (s.owner == some i) = false := by simpa using ho
  rw [hr, ho] at hw
  cases m with
  | rd l' => cases l' <;> simp_all [wf, Micro.access]
  | wr l' => cases l' <;> simp_all [wf, Micro.access]
  | free v => simp_all [wf, Micro.access]
  | lock => cases ha
  | unlock => cases ha
  | _ => simp [wf] at hw

/-- **C72** (refuted): a thread that deletes a key writes the value table of another thread while that thread reads it, or
replaces it by a larger one. -/
theorem C72_refuted_storage :
    (∃ s, Reachable step (init 2) s ∧ Race s 0 1 (.wr (.storage 1)) (.rd (.storage 1)) (.storage 1)) ∧
    ∃ s, Reachable step (init 2) s ∧ Race s 0 1 (.wr (.storage 1)) (.wr (.storage 1)) (.storage 1) := by
  constructor
  · refine ⟨_, ⟨_, exec_of_run (ls := [(1, .set), (1, .go), (1, .go), (1, .go), (1, .go), (1, .go), (0, .deleteKey), (0, .go),
      (0, .go), (0, .go), (0, .go), (1, .get)]) rfl⟩, by decide, true, false, ?_, ?_, Or.inl rfl⟩
    · exact ⟨_, _, rfl, rfl, rfl⟩
    · exact ⟨_, _, rfl, rfl, rfl⟩
  · refine ⟨_, ⟨_, exec_of_run (ls := [(1, .set), (1, .go), (1, .go), (1, .go), (1, .go), (0, .deleteKey), (0, .go),
      (0, .go), (0, .go), (0, .go)]) rfl⟩, by decide, true, true, ?_, ?_, Or.inl rfl⟩
    · exact ⟨_, _, rfl, rfl, rfl⟩
    · exact ⟨_, _, rfl, rfl, rfl⟩

/-- **C72** (refuted): a thread that exits reads the table of cleanup functions while another one creating a key
replaces it by a larger one. -/
theorem C72_refuted_table :
    ∃ s, Reachable step (init 2) s ∧ Race s 0 1 (.wr .table) (.rd .table) .table := by
  refine ⟨_, ⟨_, exec_of_run (ls := [(1, .set), (1, .go), (1, .go), (1, .go), (1, .go), (1, .go), (1, .exit 1), (1, .go),
    (0, .newKey), (0, .go), (0, .go)]) rfl⟩, by decide, true, false, ?_, ?_, Or.inl rfl⟩
  · exact ⟨_, _, rfl, rfl, rfl⟩
  · exact ⟨_, _, rfl, rfl, rfl⟩

/-- **C72**: these are the only races there are.  One of the two threads holds the mutex, and either the other one
reads the table of cleanup functions at its exit, or the storage concerned is that of the other one.  In particular the
list of contexts and the stack of freed keys are accessed without races. -/
theorem C72_races_partial {n : Nat} {s : St} (h : Reachable step (init n) s) {i j : Nat} {m m' : Micro} {l : Loc}
    (hr : Race s i j m m' l) :
    (s.owner = some i ∧ (m' = .rd .table ∨ l = .storage j)) ∨ (s.owner = some j ∧ (m = .rd .table ∨ l = .storage i)) := by
  have I := exec_inv h
  obtain ⟨hne, w, w', ha, hb, hw⟩ := hr
  by_cases hi : s.owner = some i
  · left
    refine ⟨hi, unlocked I hb ?_⟩
    rw [hi]
    intro h
    cases h
    exact hne rfl
  · have h1 := unlocked I ha hi
    by_cases hj : s.owner = some j
    · exact Or.inr ⟨hj, h1⟩
    · exfalso
      have h2 := unlocked I hb hj
      obtain ⟨_, _, _, _, ha⟩ := ha
      obtain ⟨_, _, _, _, hb⟩ := hb
      rcases h1 with rfl | rfl
      · cases ha
        rcases h2 with rfl | h2
        · cases hb
          rcases hw with hw | hw <;> cases hw
        · cases h2
      · rcases h2 with rfl | h2
        · cases hb
        · cases h2
          exact hne rfl

/-- **C72**: the list of contexts and the stack of freed keys are accessed without races. -/
theorem C72_list_partial {n : Nat} {s : St} (h : Reachable step (init n) s) {i j : Nat} {m m' : Micro} :
    ¬ Race s i j m m' .list ∧ ¬ Race s i j m m' .freed := by
  constructor
  · intro hr
    obtain ⟨_, w, w', ⟨_, _, _, _, ha⟩, ⟨_, _, _, _, hb⟩, _⟩ := id hr
    rcases C72_races_partial h hr with ⟨_, rfl | h⟩ | ⟨_, rfl | h⟩
    · cases hb
    · cases h
    · cases ha
    · cases h
  · intro hr
    obtain ⟨_, w, w', ⟨_, _, _, _, ha⟩, ⟨_, _, _, _, hb⟩, _⟩ := id hr
    rcases C72_races_partial h hr with ⟨_, rfl | h⟩ | ⟨_, rfl | h⟩
    · cases hb
    · cases h
    · cases ha
    · cases h

/-- **C72**: a context is never freed while another thread may still access it: the thread that frees its context is no
longer in the list, and nobody else is about to access its storage. -/
theorem C72_free_partial {n : Nat} {s : St} (h : Reachable step (init n) s) {i j : Nat} {m : Micro} :
    ¬ Race s i j m (.free j) (.storage j) := by
  intro hr
  have I := exec_inv h
  obtain ⟨hne, w, w', ⟨th, r, ht, htodo, ha⟩, ⟨th', r', ht', htodo', hb⟩, _⟩ := id hr
  have hf : foreign i j m = true ∨ m = .free j := by
    cases m with
    | rd l => cases ha; left; simp [foreign, Ne.symm hne]
    | wr l => cases ha; left; simp [foreign, Ne.symm hne]
    | free v => cases ha; exact Or.inr rfl
    | _ => cases ha
  rcases hf with hf | rfl
  · obtain ⟨ho, th'', ht'', hc⟩ := (I i th ht).visit j (by rw [htodo, List.any_cons, hf]; rfl)
    rw [ht'] at ht''
    cases ht''
    have hj := I j th' ht'
    have hno : (s.owner == some j) = false := by rw [ho]; simp [hne]
    have hw := hj.wf
    rw [htodo', hno] at hw
    -- behind the freeing there is nothing left of the function
    have hd : Micro.delist ∉ th'.todo := by
      simp only [wf, Bool.and_eq_true, List.isEmpty_iff] at hw
      rw [htodo', hw.2]
      simp
    have := hj.fin (by rw [htodo']; simp) hd
    rw [hc] at this
    cases this
  · rcases C72_races_partial h hr with ⟨ho, _⟩ | ⟨ho, _⟩
    · have hw := (I i th ht).wf
      rw [htodo, ho] at hw
      simp [wf] at hw
    · have hw := (I j th' ht').wf
      rw [htodo', ho] at hw
      simp [wf] at hw

/-- A thread about to free its context while another one deletes a key. -/
example : ∃ s, Reachable step (init 2) s ∧ About s 1 (.free 1) (.storage 1) true ∧ About s 0 (.wr .table) .table true := by
  refine ⟨_, ⟨_, exec_of_run (ls := [(1, .set), (1, .go), (1, .go), (1, .go), (1, .go), (1, .go), (1, .exit 1), (1, .go),
    (1, .go), (1, .go), (1, .go), (1, .go), (0, .deleteKey), (0, .go)]) rfl⟩, ?_, ?_⟩
  · exact ⟨_, _, rfl, rfl, rfl⟩
  · exact ⟨_, _, rfl, rfl, rfl⟩

end Verif.TssRace
