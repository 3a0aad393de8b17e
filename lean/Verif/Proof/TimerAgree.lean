import Verif.Proof.TimerKeys

/-! All modules use one slot as long as no OS call fails. -/

namespace Verif.TimerInit

theorem stepOk_step {s s' : St} {l : Nat × Act} {es : List Ev} (h : stepOk s l = some (s', es)) :
    l.2 ≠ .fault ∧ step s l = some (s', es) := by
  unfold stepOk at h
  split at h
  · cases h
  · next hf => exact ⟨hf, h⟩

theorem execOk_exec {s₀ s : St} {tr : List Ev} (h : Exec stepOk s₀ tr s) : Exec step s₀ tr s := by
  induction h with
  | init => exact .init
  | snoc _ hs ih => exact .snoc ih (stepOk_step hs).2

/-- Not behind a failure. -/
def PC.calm : PC → Bool
  | .alloc2 _ | .fail _ => false
  | _ => true

structure AInv (tr : List Ev) (s : St) : Prop where
  calm : ∀ (i : Nat) (pc : PC), s.ths[i]? = some pc → pc.calm = true
  setKey : ∀ i m k : Nat, s.ths[i]? = some (.setKey m k) → s.sem = some k
  publish : ∀ (i m : Nat) (d : Mod), s.ths[i]? = some (.publish m) → s.mods[m]? = some d → s.sem = some d.key
  mod : ∀ (m : Nat) (d : Mod), s.mods[m]? = some d → d.flag = 2 → s.sem = some d.key
  done : ∀ t m k : Nat, Ev.done t m k ∈ tr → s.sem = some k
  proceeded : ∀ t m k : Nat, Ev.proceeded t m k ∈ tr → s.sem = some k

theorem ainv_init (c n : Nat) : AInv [] (init c n) := by
  refine ⟨?_, ?_, ?_, ?_, (fun _ _ _ h => nomatch h), (fun _ _ _ h => nomatch h)⟩
  · intro i pc h; rw [get_replicate h]; rfl
  · intro i m k h; cases get_replicate h
  · intro i m d h; cases get_replicate h
  · intro m d h hf; rw [get_replicate h] at hf; cases hf

/-- A step that chooses no key and stores none. -/
theorem ainv_move {tr : List Ev} {s s' : St} {t : Nat} {pc' : PC} (A : AInv tr s) (hsem : s'.sem = s.sem)
    (hths : s'.ths = s.ths.set t pc') (hc : pc'.calm = true) (hs : ∀ m k, pc' = .setKey m k → s.sem = some k) (hp : ∀ m, pc' ≠ .publish m)
    (hm : ∀ (m : Nat) (d : Mod), s'.mods[m]? = some d →
      ∃ d', s.mods[m]? = some d' ∧ d'.key = d.key ∧ (d.flag = 2 → s.sem = some d.key)) :
    AInv tr s' := by
  refine ⟨by rw [hths]; exact forall_set A.calm hc, ?_, ?_, ?_, ?_, ?_⟩
  · intro i m k h
    rw [hths] at h
    rw [hsem]
    rcases get_set_cases h with ⟨_, h⟩ | ⟨_, h⟩
    · exact hs m k h.symm
    · exact A.setKey i m k h
  · intro i m d h hd
    rw [hths] at h
    rw [hsem]
    obtain ⟨d', hd', hk, _⟩ := hm m d hd
    rcases get_set_cases h with ⟨_, h⟩ | ⟨_, h⟩
    · exact absurd h.symm (hp m)
    · rw [← hk]; exact A.publish i m d' h hd'
  · intro m d hd hf
    rw [hsem]
    obtain ⟨d', hd', hk, hf'⟩ := hm m d hd
    exact hf' hf
  · intro t m k h; rw [hsem]; exact A.done t m k h
  · intro t m k h; rw [hsem]; exact A.proceeded t m k h

theorem mods_same {s : St} {tr : List Ev} (A : AInv tr s) (m : Nat) (d : Mod) (hd : s.mods[m]? = some d) :
    ∃ d', s.mods[m]? = some d' ∧ d'.key = d.key ∧ (d.flag = 2 → s.sem = some d.key) :=
  ⟨d, hd, rfl, A.mod m d hd⟩

theorem mods_set {s : St} {tr : List Ev} (A : AInv tr s) {m₀ : Nat} {d₀ d₁ : Mod} (hd₀ : s.mods[m₀]? = some d₀)
    (hk : d₁.key = d₀.key) (hf : d₁.flag = 2 → s.sem = some d₁.key) (m : Nat) (d : Mod)
    (hd : (s.mods.set m₀ d₁)[m]? = some d) :
    ∃ d', s.mods[m]? = some d' ∧ d'.key = d.key ∧ (d.flag = 2 → s.sem = some d.key) := by
  rcases get_set_cases hd with ⟨rfl, rfl⟩ | ⟨_, hd⟩
  · exact ⟨d₀, hd₀, hk.symm, hf⟩
  · exact mods_same A m d hd

theorem step_ainv {tr : List Ev} {s : St} {l : Nat × Act} {s' : St} {es : List Ev}
    (I : Inv tr s) (A : AInv tr s) (hok : l.2 ≠ .fault) (h : step s l = some (s', es)) : AInv (tr ++ es) s' := by
  obtain ⟨t, a⟩ := l
  obtain ⟨pc, ht, hl⟩ := step_lstep h
  have keep : ∀ {m : Nat} {d d' : Mod}, s.mods[m]? = some d → d'.key = d.key → d'.flag = d.flag →
      d'.flag = 2 → s.sem = some d'.key := by
    intro m d d' hd hk hf h2
    rw [hk]
    exact A.mod m d hd (by omega)
  cases hl with
  | call hm => rw [List.append_nil]; exact ainv_move A rfl rfl rfl (by simp) (by simp) (fun m d => mods_same A m d)
  | loadDone hd hf => rw [List.append_nil]; exact ainv_move A rfl rfl rfl (by simp) (by simp) (fun m d => mods_same A m d)
  | loadElse hd ha => rw [List.append_nil]; exact ainv_move A rfl rfl rfl (by simp) (by simp) (fun m d => mods_same A m d)
  | @casBegin m d hd hf =>
    have := ainv_move (s' := { s with mods := s.mods.set m { d with flag := 1 }, ths := s.ths.set t (.openSem m) })
      A rfl rfl rfl (by simp) (by simp) (mods_set A hd rfl (by simp))
    exact ⟨this.calm, this.setKey, this.publish, this.mod, by simpa using this.done, by simpa using this.proceeded⟩
  | casDone hd hf => rw [List.append_nil]; exact ainv_move A rfl rfl rfl (by simp) (by simp) (fun m d => mods_same A m d)
  | casSpin hd h0 h2 => rw [List.append_nil]; exact ainv_move A rfl rfl rfl (by simp) (by simp) (fun m d => mods_same A m d)
  | openOk hd hs => rw [List.append_nil]; exact ainv_move A rfl rfl rfl (by simp) (by simp) (mods_set A hd rfl (keep hd rfl rfl))
  | openNone hd hs => rw [List.append_nil]; exact ainv_move A rfl rfl rfl (by simp) (by simp) (mods_set A hd rfl (keep hd rfl rfl))
  | allocOk hk => rw [List.append_nil]; exact ainv_move A rfl rfl rfl (by simp) (by simp) (fun m d => mods_same A m d)
  | allocFail => exact absurd rfl hok
  | @createNew m k₀ d hd hs =>
    rw [List.append_nil]
    have no : ∀ k, s.sem ≠ some k := by intro k; rw [hs]; simp
    refine ⟨forall_set A.calm rfl, ?_, ?_, ?_, ?_, ?_⟩
    · intro i m' k h
      rcases get_set_cases h with ⟨_, h⟩ | ⟨_, h⟩
      · cases h; rfl
      · exact absurd (A.setKey i m' k h) (no k)
    · intro i m' d' h hd'
      rcases get_set_cases h with ⟨_, h⟩ | ⟨_, h⟩
      · cases h
      · rcases get_set_cases hd' with ⟨rfl, rfl⟩ | ⟨_, hd'⟩
        · exact absurd (A.publish i m d h hd) (no _)
        · exact absurd (A.publish i m' d' h hd') (no _)
    · intro m' d' hd' hf
      rcases get_set_cases hd' with ⟨rfl, rfl⟩ | ⟨_, hd'⟩
      · exact absurd (A.mod m d hd hf) (no _)
      · exact absurd (A.mod m' d' hd' hf) (no _)
    · intro t m k h; exact absurd (A.done t m k h) (no _)
    · intro t m k h; exact absurd (A.proceeded t m k h) (no _)
  | createOld hd hs => rw [List.append_nil]; exact ainv_move A rfl rfl rfl (by simp) (by simp) (mods_set A hd rfl (keep hd rfl rfl))
  | createFail hd => exact absurd rfl hok
  | free => rw [List.append_nil]; exact ainv_move A rfl rfl rfl (by simp) (by simp) (fun m d => mods_same A m d)
  | @queryOk m k₀ hk =>
    rw [List.append_nil]
    exact ainv_move A rfl rfl rfl (fun m' k h => by cases h; exact hk) (by simp) (fun m d => mods_same A m d)
  | queryFail => exact absurd rfl hok
  | alloc2Ok hk =>
    -- only reached after a failure
    exact absurd (A.calm t _ ht) (by simp [PC.calm])
  | alloc2Fail => exact absurd rfl hok
  | @setKey m k₀ d hd =>
    rw [List.append_nil]
    have hk := A.setKey t m k₀ ht
    refine ⟨forall_set A.calm rfl, ?_, ?_, ?_, A.done, A.proceeded⟩
    · intro i m' k h
      rcases get_set_cases h with ⟨_, h⟩ | ⟨_, h⟩
      · cases h
      · exact A.setKey i m' k h
    · intro i m' d' h hd'
      rcases get_set_cases hd' with ⟨rfl, rfl⟩ | ⟨hne, hd'⟩
      · exact hk
      · rcases get_set_cases h with ⟨_, h⟩ | ⟨_, h⟩
        · cases h; exact absurd rfl hne
        · exact A.publish i m' d' h hd'
    · intro m' d' hd' hf
      rcases get_set_cases hd' with ⟨rfl, rfl⟩ | ⟨_, hd'⟩
      · exact hk
      · exact A.mod m' d' hd' hf
  | @publish m d hd =>
    have hk := A.publish t m d ht hd
    have := ainv_move (s' := { s with mods := s.mods.set m { d with flag := 2 }, ths := s.ths.set t (.ready m) })
      A rfl rfl rfl (by simp) (by simp) (mods_set A hd rfl (fun _ => hk))
    refine ⟨this.calm, this.setKey, this.publish, this.mod, ?_, by simpa using this.proceeded⟩
    intro t' m' k h
    rcases List.mem_append.mp h with h | h
    · exact A.done t' m' k h
    · simp at h; rw [h.2.2]; exact hk
  | fail hd => exact absurd (A.calm t _ ht) (by simp [PC.calm])
  | @ready m d hd =>
    obtain ⟨p, hp, M⟩ := I m d hd
    obtain ⟨k, hk⟩ := M.ready t ht
    subst hk
    have hk := A.mod m d hd M.rel.1
    have := ainv_move (s' := { s with ths := s.ths.set t .idle }) A rfl rfl rfl (by simp) (by simp) (fun m d => mods_same A m d)
    refine ⟨this.calm, this.setKey, this.publish, this.mod, by simpa using this.done, ?_⟩
    intro t' m' k h
    rcases List.mem_append.mp h with h | h
    · exact A.proceeded t' m' k h
    · simp at h; rw [h.2.2]; exact hk

theorem execOk_ainv {c n : Nat} {tr : List Ev} {s : St} (h : Exec stepOk (init c n) tr s) : AInv tr s := by
  have : Inv tr s ∧ AInv tr s :=
    h.invariant (fun tr s => Inv tr s ∧ AInv tr s) ⟨inv_init c n, ainv_init c n⟩
      (fun tr s l s' es I hs =>
        ⟨step_inv tr s l s' es I.1 (stepOk_step hs).2, step_ainv I.1 I.2 (stepOk_step hs).1 (stepOk_step hs).2⟩)
  exact this.2

end Verif.TimerInit
