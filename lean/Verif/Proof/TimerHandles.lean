import Verif.Proof.TimerInit

/-! The handles of the named semaphore. -/

namespace Verif.TimerInit

/-- Inside, before a handle is obtained. -/
def PC.pre (m : Nat) : PC → Bool
  | .openSem m' | .alloc m' | .create m' _ => m' = m
  | _ => false

structure HMod (m : Nat) (d : Mod) (ths : List PC) (n : Nat) : Prop where
  reg : d.atexit = d.handles
  le : d.handles ≤ n + 1
  fresh : d.flag = 0 → d.handles ≤ n
  pre : ∀ (i : Nat) (pc : PC), ths[i]? = some pc → pc.pre m = true → d.handles ≤ n
  clean : n = 0 → d.handles = b2n d.holder

def HInv (tr : List Ev) (s : St) : Prop :=
  ∀ (m : Nat) (d : Mod), s.mods[m]? = some d → HMod m d s.ths (throws m tr)

theorem throws_append (m : Nat) (tr es : List Ev) : throws m (tr ++ es) = throws m tr + throws m es :=
  List.countP_append

theorem throws_unseen {m : Nat} {es : List Ev} (h : es.filterMap (seen m) = []) : throws m es = 0 := by
  unfold throws
  rw [List.countP_eq_zero]
  intro e he
  have := (List.filterMap_eq_nil_iff.mp h) e he
  cases e <;> simp_all [seen]

theorem hinv_init (c n : Nat) : HInv [] (init c n) := by
  intro m d hd
  have := get_replicate hd
  subst this
  refine ⟨rfl, by simp [mod0], by simp [mod0], ?_, by simp [mod0]⟩
  intro i pc h hp
  rw [get_replicate h] at hp
  cases hp

theorem pre_crit {m : Nat} {pc : PC} (h : pc.pre m = true) : pc.crit m = true := by
  cases pc <;> simp_all [PC.pre, PC.crit]

theorem step_hinv {tr : List Ev} {s : St} {l : Nat × Act} {s' : St} {es : List Ev}
    (I : Inv tr s) (H : HInv tr s) (h : step s l = some (s', es)) : HInv (tr ++ es) s' := by
  obtain ⟨t, a⟩ := l
  obtain ⟨pc, ht, hl⟩ := step_lstep h
  intro m d₀ hd₀
  by_cases hmm : pc.mod ≠ some m
  · obtain ⟨pc', hths, hc, hc', hr, hes, hmods⟩ := lstep_frame hl hmm
    rw [hmods] at hd₀
    have M := H m d₀ hd₀
    rw [throws_append, throws_unseen hes, hths]
    refine ⟨M.reg, M.le, M.fresh, ?_, M.clean⟩
    intro i q hq hp
    rcases get_set_cases hq with ⟨_, rfl⟩ | ⟨_, hq⟩
    · rw [pre_crit hp] at hc'; cases hc'
    · exact M.pre i q hq hp
  replace hmm := Decidable.not_not.mp hmm
  -- no handle is obtained
  have same : ∀ {d d' : Mod} {pc' : PC}, s.mods[m]? = some d → d' = d₀ → d'.handles = d.handles →
      d'.atexit = d.atexit → (d'.holder = d.holder ∨ d'.holder = false ∧ pc.pre m = true) → (d'.flag = 0 → d.flag = 0) →
      (pc'.pre m = true → pc.pre m = true ∨ d.flag = 0) →
      HMod m d₀ (s.ths.set t pc') (throws m tr) := by
    intro d d' pc' hd hdd hh ha hho hf hp
    subst hdd
    have M := H m d hd
    refine ⟨by rw [ha, hh]; exact M.reg, by rw [hh]; exact M.le, fun h => by rw [hh]; exact M.fresh (hf h), ?_, ?_⟩
    · intro i q hq hqp
      rw [hh]
      rcases get_set_cases hq with ⟨_, rfl⟩ | ⟨_, hq⟩
      · rcases hp hqp with h | h
        · exact M.pre t _ ht h
        · exact M.fresh h
      · exact M.pre i q hq hqp
    · intro h0
      rw [hh]
      rcases hho with h | ⟨h, hpre⟩
      · rw [h]; exact M.clean h0
      · have := M.pre t _ ht hpre
        rw [h]; simp; omega
  -- a handle is obtained
  have more : ∀ {d : Mod} {pc' : PC}, s.mods[m]? = some d → d.hold = d₀ → pc.pre m = true → pc'.pre m = false →
      HMod m d₀ (s.ths.set t pc') (throws m tr) := by
    intro d pc' hd hdd hpre hpre'
    subst hdd
    have M := H m d hd
    have hle := M.pre t _ ht hpre
    obtain ⟨p, _, MI⟩ := I m d hd
    have hp := MI.crit t pc ht (pre_crit hpre)
    subst hp
    have hf : d.flag = 1 := MI.rel
    refine ⟨?_, ?_, ?_, ?_, ?_⟩
    · have := M.reg; simp only [Mod.hold]; omega
    · simp only [Mod.hold]; omega
    · intro h; simp only [Mod.hold] at h; omega
    · intro i q hq hqp
      rcases get_set_cases hq with ⟨_, rfl⟩ | ⟨hne, hq⟩
      · rw [hpre'] at hqp; cases hqp
      · have := MI.crit i q hq (pre_crit hqp)
        cases this
        exact absurd rfl hne
    · intro h0
      simp [Mod.hold]
      omega
  rw [throws_append]
  cases hl with
  | call hm => cases hmm
  | loadDone hd hf =>
    cases hmm
    exact same hd (by simp_all) rfl rfl (Or.inl rfl) id (by simp [PC.pre])
  | loadElse hd ha =>
    cases hmm
    exact same hd (by simp_all) rfl rfl (Or.inl rfl) id (by simp [PC.pre])
  | casBegin hd hf =>
    cases hmm
    exact same hd (get_set_self' hd hd₀).symm rfl rfl (Or.inl rfl) (by simp) (fun _ => Or.inr hf)
  | casDone hd hf =>
    cases hmm
    exact same hd (by simp_all) rfl rfl (Or.inl rfl) id (by simp [PC.pre])
  | casSpin hd h0 h2 =>
    cases hmm
    exact same hd (by simp_all) rfl rfl (Or.inl rfl) id (by simp [PC.pre])
  | openOk hd hs => cases hmm; exact more hd (get_set_self' hd hd₀).symm (by simp [PC.pre]) rfl
  | openNone hd hs =>
    cases hmm
    exact same hd (get_set_self' hd hd₀).symm rfl rfl (Or.inr ⟨rfl, by simp [PC.pre]⟩) id (by simp [PC.pre])
  | allocOk hk => cases hmm; exact same hd₀ rfl rfl rfl (Or.inl rfl) id (by simp [PC.pre])
  | allocFail => cases hmm; exact same hd₀ rfl rfl rfl (Or.inl rfl) id (by simp [PC.pre])
  | createNew hd hs => cases hmm; exact more hd (get_set_self' hd hd₀).symm (by simp [PC.pre]) rfl
  | createOld hd hs => cases hmm; exact more hd (get_set_self' hd hd₀).symm (by simp [PC.pre]) rfl
  | createFail hd =>
    cases hmm
    exact same hd (get_set_self' hd hd₀).symm rfl rfl (Or.inr ⟨rfl, by simp [PC.pre]⟩) id (by simp [PC.pre])
  | free => cases hmm; exact same hd₀ rfl rfl rfl (Or.inl rfl) id (by simp [PC.pre])
  | queryOk hk => cases hmm; exact same hd₀ rfl rfl rfl (Or.inl rfl) id (by simp [PC.pre])
  | queryFail => cases hmm; exact same hd₀ rfl rfl rfl (Or.inl rfl) id (by simp [PC.pre])
  | alloc2Ok hk => cases hmm; exact same hd₀ rfl rfl rfl (Or.inl rfl) id (by simp [PC.pre])
  | alloc2Fail => cases hmm; exact same hd₀ rfl rfl rfl (Or.inl rfl) id (by simp [PC.pre])
  | setKey hd =>
    cases hmm
    exact same hd (get_set_self' hd hd₀).symm rfl rfl (Or.inl rfl) id (by simp [PC.pre])
  | publish hd =>
    cases hmm
    exact same hd (get_set_self' hd hd₀).symm rfl rfl (Or.inl rfl) (by simp) (by simp [PC.pre])
  | @fail m' d hd =>
    cases hmm
    have := get_set_self' hd hd₀
    subst this
    have M := H m d hd
    have h1 : throws m [Ev.threw t m] = 1 := by simp [throws]
    rw [h1]
    have hle := M.le
    refine ⟨M.reg, ?_, fun _ => hle, ?_, ?_⟩
    · simp only; omega
    · intro i q hq hqp; exact hle
    · intro h; omega
  | ready hd =>
    cases hmm
    exact same hd (by simp_all) rfl rfl (Or.inl rfl) id (by simp [PC.pre])

theorem exec_hinv {c n : Nat} {tr : List Ev} {s : St} (h : Exec step (init c n) tr s) : HInv tr s := by
  have : Inv tr s ∧ HInv tr s :=
    h.invariant (fun tr s => Inv tr s ∧ HInv tr s) ⟨inv_init c n, hinv_init c n⟩
      (fun tr s l s' es I hs => ⟨step_inv tr s l s' es I.1 hs, step_hinv I.1 I.2 hs⟩)
  exact this.2

/-- `destroy` closes at most one handle however often it is called. -/
theorem repeat_destroy (k : Nat) (d : Mod) :
    (Nat.repeat Mod.destroy k d).handles = (if k = 0 then d.handles else d.handles - b2n d.holder) ∧
      (Nat.repeat Mod.destroy k d).holder = (if k = 0 then d.holder else false) := by
  induction k with
  | zero => exact ⟨rfl, rfl⟩
  | succ k ih =>
    simp only [Nat.repeat, Mod.destroy]
    cases k with
    | zero =>
      simp only [Nat.repeat]
      by_cases h : d.holder = true <;> simp [h]
    | succ k =>
      simp only [Nat.succ_ne_zero, if_false] at ih ⊢
      rw [ih.2]
      simp [ih.1, ih.2]

end Verif.TimerInit
