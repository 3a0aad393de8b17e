import Verif.Base.Count
import Verif.Spec.TimerInit

/-! Invariants of the initialisation of the waitable timer state. -/

namespace Verif.TimerInit

/-- The steps of `step` as a relation. -/
inductive LStep (s : St) (t : Nat) : PC → Act → St → List Ev → Prop
  | call {m : Nat} : m < s.mods.length → LStep s t .idle (.call m) { s with ths := s.ths.set t (.load m) } []
  | loadDone {m : Nat} {d : Mod} : s.mods[m]? = some d → d.flag = 2 →
      LStep s t (.load m) .go { s with ths := s.ths.set t (.ready m) } []
  | loadElse {m : Nat} {d : Mod} {a : Act} : s.mods[m]? = some d → a ≠ .fault →
      LStep s t (.load m) a { s with ths := s.ths.set t (.cas m) } []
  | casBegin {m : Nat} {d : Mod} : s.mods[m]? = some d → d.flag = 0 →
      LStep s t (.cas m) .go { s with mods := s.mods.set m { d with flag := 1 }, ths := s.ths.set t (.openSem m) }
        [.began t m]
  | casDone {m : Nat} {d : Mod} : s.mods[m]? = some d → d.flag = 2 →
      LStep s t (.cas m) .go { s with ths := s.ths.set t (.ready m) } []
  | casSpin {m : Nat} {d : Mod} : s.mods[m]? = some d → d.flag ≠ 0 → d.flag ≠ 2 →
      LStep s t (.cas m) .go { s with ths := s.ths.set t (.cas m) } []
  | openOk {m : Nat} {d : Mod} {k : Nat} : s.mods[m]? = some d → s.sem = some k →
      LStep s t (.openSem m) .go { s with mods := s.mods.set m d.hold, ths := s.ths.set t (.query m) } []
  | openNone {m : Nat} {d : Mod} {a : Act} : s.mods[m]? = some d → (a = .fault ∨ a = .go ∧ s.sem = none) →
      LStep s t (.openSem m) a { s with mods := s.mods.set m d.noHold, ths := s.ths.set t (.alloc m) } []
  | allocOk {m k : Nat} : k ∉ s.live →
      LStep s t (.alloc m) (.slot k) { s with live := k :: s.live, ths := s.ths.set t (.create m k) } []
  | allocFail {m : Nat} : LStep s t (.alloc m) .fault { s with ths := s.ths.set t (.fail m) } []
  | createNew {m k : Nat} {d : Mod} : s.mods[m]? = some d → s.sem = none →
      LStep s t (.create m k) .go
        { s with mods := s.mods.set m d.hold, sem := some k, ths := s.ths.set t (.setKey m k) } []
  | createOld {m k k' : Nat} {d : Mod} : s.mods[m]? = some d → s.sem = some k' →
      LStep s t (.create m k) .go { s with mods := s.mods.set m d.hold, ths := s.ths.set t (.free m k) } []
  | createFail {m k : Nat} {d : Mod} : s.mods[m]? = some d →
      LStep s t (.create m k) .fault { s with mods := s.mods.set m d.noHold, ths := s.ths.set t (.setKey m k) } []
  | free {m k : Nat} : LStep s t (.free m k) .go { s with live := s.live.erase k, ths := s.ths.set t (.query m) } []
  | queryOk {m k : Nat} : s.sem = some k → LStep s t (.query m) .go { s with ths := s.ths.set t (.setKey m k) } []
  | queryFail {m : Nat} : LStep s t (.query m) .fault { s with ths := s.ths.set t (.alloc2 m) } []
  | alloc2Ok {m k : Nat} : k ∉ s.live →
      LStep s t (.alloc2 m) (.slot k) { s with live := k :: s.live, ths := s.ths.set t (.setKey m k) } []
  | alloc2Fail {m : Nat} : LStep s t (.alloc2 m) .fault { s with ths := s.ths.set t (.fail m) } []
  | setKey {m k : Nat} {d : Mod} : s.mods[m]? = some d →
      LStep s t (.setKey m k) .go { s with mods := s.mods.set m { d with key := k }, ths := s.ths.set t (.publish m) } []
  | publish {m : Nat} {d : Mod} : s.mods[m]? = some d →
      LStep s t (.publish m) .go { s with mods := s.mods.set m { d with flag := 2 }, ths := s.ths.set t (.ready m) }
        [.done t m d.key]
  | fail {m : Nat} {d : Mod} : s.mods[m]? = some d →
      LStep s t (.fail m) .go { s with mods := s.mods.set m { d with flag := 0 }, ths := s.ths.set t .idle } [.threw t m]
  | ready {m : Nat} {d : Mod} : s.mods[m]? = some d →
      LStep s t (.ready m) .go { s with ths := s.ths.set t .idle } [.proceeded t m d.key]

theorem step_lstep {s s' : St} {t : Nat} {a : Act} {es : List Ev} (h : step s (t, a) = some (s', es)) :
    ∃ pc, s.ths[t]? = some pc ∧ LStep s t pc a s' es := by
  unfold step at h
  simp only at h
  split at h
  · cases h
  next pc ht =>
  refine ⟨pc, ht, ?_⟩
  split at h
  · split at h
    · next hm => cases h; exact .call hm
    · cases h
  · next m =>
    split at h
    · next d hd =>
      split at h
      · next hf => cases h; exact .loadDone hd hf
      · cases h; exact .loadElse hd (by simp)
    · next d hd => cases h; exact .loadElse hd (by simp)
    · cases h
  · split at h
    · next d hd =>
      split at h
      · next hf => cases h; exact .casBegin hd hf
      · next h0 =>
        split at h
        · next hf => cases h; exact .casDone hd hf
        · next h2 => cases h; exact .casSpin hd h0 h2
    · cases h
  · split at h
    · next hd hs => cases h; exact .openOk hd hs
    · next hd hs => cases h; exact .openNone hd (Or.inr ⟨rfl, hs⟩)
    · next hd => cases h; exact .openNone hd (Or.inl rfl)
    · cases h
  · split at h
    · cases h
    · next hk => cases h; exact .allocOk hk
  · cases h; exact .allocFail
  · split at h
    · next hd hs => cases h; exact .createNew hd hs
    · next hd hs => cases h; exact .createOld hd hs
    · next hd => cases h; exact .createFail hd
    · cases h
  · cases h; exact .free
  · split at h
    · next hs => cases h; exact .queryOk hs
    · cases h
  · cases h; exact .queryFail
  · split at h
    · cases h
    · next hk => cases h; exact .alloc2Ok hk
  · cases h; exact .alloc2Fail
  · split at h
    · next hd => cases h; exact .setKey hd
    · cases h
  · split at h
    · next hd => cases h; exact .publish hd
    · cases h
  · split at h
    · next hd => cases h; exact .fail hd
    · cases h
  · split at h
    · next hd => cases h; exact .ready hd
    · cases h
  · cases h

/-- Between the exchange to `st_in_progress` and the one that ends it. -/
def PC.crit (m : Nat) : PC → Bool
  | .openSem m' | .alloc m' | .create m' _ | .free m' _ | .query m' | .alloc2 m' | .setKey m' _ | .publish m'
  | .fail m' => m' = m
  | _ => false

/-- The module agrees with the state of the specification. -/
def Rel (d : Mod) : Once.Ph Nat → Prop
  | .fresh => d.flag = 0
  | .running _ => d.flag = 1
  | .complete k => d.flag = 2 ∧ d.key = k

/-- What holds of module `m` and the threads working on it. -/
structure ModInv (m : Nat) (d : Mod) (ths : List PC) (p : Once.Ph Nat) : Prop where
  rel : Rel d p
  crit : ∀ (i : Nat) (pc : PC), ths[i]? = some pc → pc.crit m = true → p = .running i
  ready : ∀ (i : Nat), ths[i]? = some (.ready m) → ∃ k, p = .complete k
  run : ∀ (i : Nat), p = .running i → ∃ pc, ths[i]? = some pc ∧ pc.crit m = true

def Inv (tr : List Ev) (s : St) : Prop :=
  ∀ (m : Nat) (d : Mod), s.mods[m]? = some d →
    ∃ p, Once.after (tr.filterMap (seen m)) = some p ∧ ModInv m d s.ths p

theorem after_append {κ : Type} [DecidableEq κ] {es fs : List (Once.Ev κ)} :
    Once.after (es ++ fs) = fs.foldl (fun p e => p.bind fun p => Once.next p e) (Once.after es) := by
  simp [Once.after, List.foldl_append]

theorem inv_init (c n : Nat) : Inv [] (init c n) := by
  intro m d hd
  have := get_replicate hd
  subst this
  refine ⟨.fresh, rfl, ⟨rfl, ?_, ?_, ?_⟩⟩
  · intro i pc h hc; rw [get_replicate h] at hc; cases hc
  · intro i h; cases get_replicate h
  · intro i h; cases h

/-- A thread moves without the module's changing what matters. -/
theorem modInv_move {m : Nat} {d d' : Mod} {ths : List PC} {p : Once.Ph Nat} {t : Nat} {pc pc' : PC}
    (M : ModInv m d ths p) (ht : ths[t]? = some pc) (hrel : Rel d' p)
    (hcrit : pc'.crit m = pc.crit m) (hready : pc' = .ready m → ∃ k, p = .complete k) :
    ModInv m d' (ths.set t pc') p := by
  refine ⟨hrel, ?_, ?_, ?_⟩
  · intro i q hq hc
    rcases get_set_cases hq with ⟨rfl, rfl⟩ | ⟨_, hq⟩
    · exact M.crit _ _ ht (hcrit ▸ hc)
    · exact M.crit _ _ hq hc
  · intro i hq
    rcases get_set_cases hq with ⟨rfl, h⟩ | ⟨_, hq⟩
    · exact hready h.symm
    · exact M.ready _ hq
  · intro i hp
    obtain ⟨q, hq, hc⟩ := M.run i hp
    by_cases hi : t = i
    · subst hi
      refine ⟨pc', get_set_self ht, ?_⟩
      rw [ht] at hq
      cases hq
      rw [hcrit]
      exact hc
    · exact ⟨q, by rw [get_set_ne hi]; exact hq, hc⟩

/-- A step of a thread that does not work on module `m` leaves it alone. -/
theorem lstep_frame {s s' : St} {t m : Nat} {pc : PC} {a : Act} {es : List Ev} (h : LStep s t pc a s' es)
    (hm : pc.mod ≠ some m) :
    ∃ pc', s'.ths = s.ths.set t pc' ∧ pc.crit m = false ∧ pc'.crit m = false ∧ pc' ≠ .ready m ∧
      es.filterMap (seen m) = [] ∧ s'.mods[m]? = s.mods[m]? := by
  cases h <;> simp only [PC.mod, ne_eq, Option.some.injEq] at hm <;> refine ⟨_, rfl, ?_⟩ <;>
    simp [PC.crit, seen, hm]

theorem get_set_self' {α : Type} {l : List α} {i : Nat} {a x y : α} (h : l[i]? = some a)
    (hx : (l.set i x)[i]? = some y) : y = x := by
  rw [get_set_self h] at hx
  cases hx
  rfl

theorem flag_two {m : Nat} {d : Mod} {ths : List PC} {p : Once.Ph Nat} (M : ModInv m d ths p) (h : d.flag = 2) :
    ∃ k, p = .complete k := by
  have hr := M.rel
  cases p with
  | fresh => simp only [Rel] at hr; omega
  | running i => simp only [Rel] at hr; omega
  | complete k => exact ⟨k, rfl⟩

theorem step_inv (tr : List Ev) (s : St) (l : Nat × Act) (s' : St) (es : List Ev)
    (I : Inv tr s) (h : step s l = some (s', es)) : Inv (tr ++ es) s' := by
  obtain ⟨t, a⟩ := l
  obtain ⟨pc, ht, hl⟩ := step_lstep h
  intro m d₀ hd₀
  rw [List.filterMap_append]
  by_cases hmm : pc.mod ≠ some m
  · obtain ⟨pc', hths, hc, hc', hr, hes, hmods⟩ := lstep_frame hl hmm
    rw [hmods] at hd₀
    obtain ⟨p, hp, M⟩ := I m d₀ hd₀
    refine ⟨p, by rw [hes]; simpa using hp, ?_⟩
    rw [hths]
    exact modInv_move M ht M.rel (by rw [hc, hc']) (fun h => absurd h hr)
  replace hmm := Decidable.not_not.mp hmm
  -- the thread stays outside or inside the critical part, no event
  have quiet : ∀ {d d' : Mod} {pc' : PC}, s.mods[m]? = some d → d' = d₀ → d'.flag = d.flag →
      (d.flag = 2 → d'.key = d.key) → pc'.crit m = pc.crit m → (pc' = .ready m → d.flag = 2) →
      ∃ p, Once.after (tr.filterMap (seen m) ++ ([] : List Ev).filterMap (seen m)) = some p ∧
        ModInv m d₀ (s.ths.set t pc') p := by
    intro d d' pc' hd hdd hf hk hcr hrd
    subst hdd
    obtain ⟨p, hp, M⟩ := I m d hd
    refine ⟨p, by simpa using hp, modInv_move M ht ?_ hcr (fun h => flag_two M (hrd h))⟩
    have hr := M.rel
    cases p with
    | fresh => simp only [Rel] at hr ⊢; omega
    | running i => simp only [Rel] at hr ⊢; omega
    | complete k => simp only [Rel] at hr ⊢; exact ⟨by omega, by rw [hk hr.1]; exact hr.2⟩
  -- inside the critical part the flag is 1
  have inside : ∀ {d : Mod}, s.mods[m]? = some d → pc.crit m = true → d.flag = 1 := by
    intro d hd hc
    obtain ⟨p, hp, M⟩ := I m d hd
    have := M.crit t pc ht hc
    subst this
    exact M.rel
  cases hl with
  | call hm => cases hmm
  | loadDone hd hf => cases hmm; rw [hd] at hd₀; cases hd₀; exact quiet hd rfl rfl (fun _ => rfl) rfl (fun _ => hf)
  | loadElse hd ha => cases hmm; rw [hd] at hd₀; cases hd₀; exact quiet hd rfl rfl (fun _ => rfl) rfl (fun h => nomatch h)
  | casBegin hd hf =>
    rename_i m' d
    cases hmm
    have := get_set_self' hd hd₀
    subst this
    obtain ⟨p, hp, M⟩ := I m d hd
    have hr := M.rel
    have hp' : p = .fresh := by
      cases p with
      | fresh => rfl
      | running i => simp only [Rel] at hr; omega
      | complete k => simp only [Rel] at hr; omega
    subst hp'
    refine ⟨.running t, ?_, ⟨rfl, ?_, ?_, ?_⟩⟩
    · rw [after_append, hp]; simp [seen, Once.next]
    · intro i q hq hc
      rcases get_set_cases hq with ⟨rfl, rfl⟩ | ⟨_, hq⟩
      · rfl
      · have := M.crit i q hq hc; cases this
    · intro i hq
      rcases get_set_cases hq with ⟨rfl, h⟩ | ⟨_, hq⟩
      · cases h
      · obtain ⟨k, hk⟩ := M.ready i hq; cases hk
    · intro i hi
      cases hi
      exact ⟨_, get_set_self ht, by simp [PC.crit]⟩
  | casDone hd hf => cases hmm; rw [hd] at hd₀; cases hd₀; exact quiet hd rfl rfl (fun _ => rfl) rfl (fun _ => hf)
  | casSpin hd h0 h2 => cases hmm; rw [hd] at hd₀; cases hd₀; exact quiet hd rfl rfl (fun _ => rfl) rfl (fun h => nomatch h)
  | openOk hd hs =>
    cases hmm
    exact quiet hd (get_set_self' hd hd₀).symm rfl (fun _ => rfl) rfl (fun h => nomatch h)
  | openNone hd hs =>
    cases hmm
    exact quiet hd (get_set_self' hd hd₀).symm rfl (fun _ => rfl) rfl (fun h => nomatch h)
  | allocOk hk => cases hmm; exact quiet hd₀ rfl rfl (fun _ => rfl) rfl (fun h => nomatch h)
  | allocFail => cases hmm; exact quiet hd₀ rfl rfl (fun _ => rfl) rfl (fun h => nomatch h)
  | createNew hd hs =>
    cases hmm
    exact quiet hd (get_set_self' hd hd₀).symm rfl (fun _ => rfl) rfl (fun h => nomatch h)
  | createOld hd hs =>
    cases hmm
    exact quiet hd (get_set_self' hd hd₀).symm rfl (fun _ => rfl) rfl (fun h => nomatch h)
  | createFail hd =>
    cases hmm
    exact quiet hd (get_set_self' hd hd₀).symm rfl (fun _ => rfl) rfl (fun h => nomatch h)
  | free => cases hmm; exact quiet hd₀ rfl rfl (fun _ => rfl) rfl (fun h => nomatch h)
  | queryOk hk => cases hmm; exact quiet hd₀ rfl rfl (fun _ => rfl) rfl (fun h => nomatch h)
  | queryFail => cases hmm; exact quiet hd₀ rfl rfl (fun _ => rfl) rfl (fun h => nomatch h)
  | alloc2Ok hk => cases hmm; exact quiet hd₀ rfl rfl (fun _ => rfl) rfl (fun h => nomatch h)
  | alloc2Fail => cases hmm; exact quiet hd₀ rfl rfl (fun _ => rfl) rfl (fun h => nomatch h)
  | setKey hd =>
    cases hmm
    refine quiet hd (get_set_self' hd hd₀).symm rfl (fun h2 => ?_) rfl (fun h => nomatch h)
    have := inside hd (by simp [PC.crit])
    omega
  | publish hd =>
    rename_i m' d
    cases hmm
    have := get_set_self' hd hd₀
    subst this
    obtain ⟨p, hp, M⟩ := I m d hd
    have := M.crit t _ ht (by simp [PC.crit])
    subst this
    refine ⟨.complete d.key, ?_, ⟨⟨rfl, rfl⟩, ?_, ?_, ?_⟩⟩
    · rw [after_append, hp]; simp [seen, Once.next]
    · intro i q hq hc
      rcases get_set_cases hq with ⟨rfl, rfl⟩ | ⟨hne, hq⟩
      · cases hc
      · have := M.crit i q hq hc; cases this; exact absurd rfl hne
    · intro i hq; exact ⟨_, rfl⟩
    · intro i hi; cases hi
  | fail hd =>
    rename_i m' d
    cases hmm
    have := get_set_self' hd hd₀
    subst this
    obtain ⟨p, hp, M⟩ := I m d hd
    have := M.crit t _ ht (by simp [PC.crit])
    subst this
    refine ⟨.fresh, ?_, ⟨rfl, ?_, ?_, ?_⟩⟩
    · rw [after_append, hp]; simp [seen, Once.next]
    · intro i q hq hc
      rcases get_set_cases hq with ⟨rfl, rfl⟩ | ⟨hne, hq⟩
      · cases hc
      · have := M.crit i q hq hc; cases this; exact absurd rfl hne
    · intro i hq
      rcases get_set_cases hq with ⟨rfl, h⟩ | ⟨_, hq⟩
      · cases h
      · obtain ⟨k, hk⟩ := M.ready i hq; cases hk
    · intro i hi; cases hi
  | ready hd =>
    rename_i m' d
    cases hmm
    rw [hd] at hd₀
    cases hd₀
    obtain ⟨p, hp, M⟩ := I m _ hd
    obtain ⟨k, hk⟩ := M.ready t ht
    subst hk
    have hr := M.rel.2
    refine ⟨.complete k, ?_, modInv_move M ht M.rel rfl (fun h => nomatch h)⟩
    rw [after_append, hp]; simp [seen, Once.next, hr]

theorem exec_inv {c n : Nat} {tr : List Ev} {s : St} (h : Exec step (init c n) tr s) : Inv tr s :=
  h.invariant Inv (inv_init c n) step_inv

end Verif.TimerInit
