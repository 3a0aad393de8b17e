import Verif.Proof.TimerInit

/-! The TLS slots used by the waitable timer state. -/

namespace Verif.TimerInit

/-- The slot a thread has allocated and not yet passed on. -/
def PC.holds (k : Nat) : PC → Bool
  | .create _ k' | .free _ k' => k' = k
  | _ => false

/-- What of a module matters for the slots. -/
def Mod.view (d : Mod) : Nat × Bool := (d.key, decide (d.flag = 2))

/-- Module `m` has the key `k` for good. -/
def HasKey (s : St) (m k : Nat) : Prop :=
  (s.mods[m]?).map Mod.view = some (k, true) ∨
    ∃ b, (s.mods[m]?).map Mod.view = some (k, b) ∧ ∃ i : Nat, s.ths[i]? = some (PC.publish m)

/-- The slot `k` is a module's key or about to become one. -/
def Settled (s : St) (k : Nat) : Prop := (∃ i m : Nat, s.ths[i]? = some (PC.setKey m k)) ∨ ∃ m, HasKey s m k

/-- Neither storing the key nor publishing it. -/
def PC.plain : PC → Bool
  | .setKey _ _ | .publish _ => false
  | _ => true

theorem mem_set_plain {ths : List PC} {t : Nat} {pc pc' q : PC} (ht : ths[t]? = some pc) (h1 : pc.plain = true)
    (h2 : pc'.plain = true) (hq : q.plain = false) :
    (∃ i : Nat, (ths.set t pc')[i]? = some q) ↔ ∃ i : Nat, ths[i]? = some q := by
  constructor
  · rintro ⟨i, hi⟩
    rcases get_set_cases hi with ⟨_, rfl⟩ | ⟨_, hi⟩
    · rw [h2] at hq; cases hq
    · exact ⟨i, hi⟩
  · rintro ⟨i, hi⟩
    refine ⟨i, ?_⟩
    by_cases hti : t = i
    · subst hti
      rw [ht] at hi
      cases hi
      rw [h1] at hq; cases hq
    · rw [get_set_ne hti]; exact hi

theorem hasKey_congr {s s' : St} {m k : Nat} (hm : (s'.mods[m]?).map Mod.view = (s.mods[m]?).map Mod.view)
    (hp : (∃ i : Nat, s'.ths[i]? = some (PC.publish m)) ↔ ∃ i : Nat, s.ths[i]? = some (PC.publish m)) :
    HasKey s' m k ↔ HasKey s m k := by
  unfold HasKey
  rw [hm]
  simp only [hp]

theorem settled_congr {s s' : St} {k : Nat} (hm : ∀ m, HasKey s' m k ↔ HasKey s m k)
    (hs : ∀ m : Nat, (∃ i : Nat, s'.ths[i]? = some (PC.setKey m k)) ↔ ∃ i : Nat, s.ths[i]? = some (PC.setKey m k)) :
    Settled s' k ↔ Settled s k := by
  unfold Settled
  constructor
  · rintro (⟨i, m, h⟩ | ⟨m, h⟩)
    · obtain ⟨i', h'⟩ := (hs m).mp ⟨i, h⟩
      exact Or.inl ⟨i', m, h'⟩
    · exact Or.inr ⟨m, (hm m).mp h⟩
  · rintro (⟨i, m, h⟩ | ⟨m, h⟩)
    · obtain ⟨i', h'⟩ := (hs m).mpr ⟨i, h⟩
      exact Or.inl ⟨i', m, h'⟩
    · exact Or.inr ⟨m, (hm m).mpr h⟩

/-- A plain move. -/
theorem settled_plain {s s' : St} {t k : Nat} {pc pc' : PC} (ht : s.ths[t]? = some pc) (h1 : pc.plain = true)
    (h2 : pc'.plain = true) (hths : s'.ths = s.ths.set t pc')
    (hm : ∀ m : Nat, (s'.mods[m]?).map Mod.view = (s.mods[m]?).map Mod.view) : Settled s' k ↔ Settled s k := by
  refine settled_congr (fun m => hasKey_congr (hm m) ?_) (fun m => ?_)
  · rw [hths]; exact mem_set_plain ht h1 h2 rfl
  · rw [hths]; exact mem_set_plain ht h1 h2 rfl

/-- A key gets chosen. -/
theorem settled_choose {s s' : St} {t k k₀ m₀ : Nat} {pc : PC} (ht : s.ths[t]? = some pc) (h1 : pc.plain = true)
    (hths : s'.ths = s.ths.set t (.setKey m₀ k₀))
    (hm : ∀ m : Nat, (s'.mods[m]?).map Mod.view = (s.mods[m]?).map Mod.view) : Settled s' k ↔ Settled s k ∨ k = k₀ := by
  have hk : ∀ m, HasKey s' m k ↔ HasKey s m k := by
    intro m
    refine hasKey_congr (hm m) ?_
    rw [hths]
    constructor
    · rintro ⟨i, hi⟩
      rcases get_set_cases hi with ⟨_, h⟩ | ⟨_, hi⟩
      · cases h
      · exact ⟨i, hi⟩
    · rintro ⟨i, hi⟩
      refine ⟨i, ?_⟩
      rw [get_set_ne]
      · exact hi
      · rintro rfl
        rw [ht] at hi
        cases hi
        cases h1
  unfold Settled
  constructor
  · rintro (⟨i, m, h⟩ | ⟨m, h⟩)
    · rw [hths] at h
      rcases get_set_cases h with ⟨_, h⟩ | ⟨_, h⟩
      · cases h; exact Or.inr rfl
      · exact Or.inl (Or.inl ⟨i, m, h⟩)
    · exact Or.inl (Or.inr ⟨m, (hk m).mp h⟩)
  · rintro ((⟨i, m, h⟩ | ⟨m, h⟩) | h)
    · refine Or.inl ⟨i, m, ?_⟩
      rw [hths, get_set_ne]
      · exact h
      · rintro rfl
        rw [ht] at h
        cases h
        cases h1
    · exact Or.inr ⟨m, (hk m).mpr h⟩
    · subst h
      exact Or.inl ⟨t, m₀, by rw [hths]; exact get_set_self ht⟩

theorem view_set {mods : List Mod} {m : Nat} {d d' : Mod} (hd : mods[m]? = some d) (hv : d'.view = d.view) (m' : Nat) :
    ((mods.set m d')[m']?).map Mod.view = (mods[m']?).map Mod.view := by
  by_cases h : m = m'
  · subst h
    rw [get_set_self hd, hd]
    simp [hv]
  · rw [get_set_ne h]

/-- Storing the key. -/
theorem settled_store {s : St} {t k k₀ m₀ : Nat} {d : Mod} (ht : s.ths[t]? = some (.setKey m₀ k₀))
    (hd : s.mods[m₀]? = some d) (hf : d.flag = 1) (hno : ∀ i : Nat, s.ths[i]? ≠ some (.publish m₀)) :
    Settled { s with mods := s.mods.set m₀ { d with key := k₀ }, ths := s.ths.set t (.publish m₀) } k ↔ Settled s k := by
  have hv : d.view = (d.key, false) := by simp [Mod.view, hf]
  have hv' : ({ d with key := k₀ } : Mod).view = (k₀, false) := by simp [Mod.view, hf]
  unfold Settled
  constructor
  · rintro (⟨i, m, h⟩ | ⟨m, h⟩)
    · rcases get_set_cases h with ⟨_, h⟩ | ⟨_, h⟩
      · cases h
      · exact Or.inl ⟨i, m, h⟩
    · by_cases hm : m₀ = m
      · subst hm
        left
        refine ⟨t, m₀, ?_⟩
        unfold HasKey at h
        simp only [get_set_self hd, Option.map_some, hv', Option.some.injEq, Prod.mk.injEq] at h
        rcases h with ⟨_, h⟩ | ⟨b, ⟨h, _⟩, _⟩
        · cases h
        · rw [← h]; exact ht
      · right
        refine ⟨m, (hasKey_congr ?_ ?_).mp h⟩
        · simp only; rw [get_set_ne hm]
        · constructor
          · rintro ⟨i, hi⟩
            rcases get_set_cases hi with ⟨_, h⟩ | ⟨_, hi⟩
            · cases h; exact absurd rfl hm
            · exact ⟨i, hi⟩
          · rintro ⟨i, hi⟩
            refine ⟨i, ?_⟩
            simp only
            rw [get_set_ne]
            · exact hi
            · rintro rfl
              rw [ht] at hi
              cases hi
  · rintro (⟨i, m, h⟩ | ⟨m, h⟩)
    · by_cases hi : t = i
      · subst hi
        rw [ht] at h
        cases h
        right
        refine ⟨m₀, Or.inr ⟨false, ?_, t, get_set_self ht⟩⟩
        simp only [get_set_self hd, Option.map_some, hv']
      · exact Or.inl ⟨i, m, by simp only; rw [get_set_ne hi]; exact h⟩
    · right
      have hm : m₀ ≠ m := by
        rintro rfl
        rcases h with h | ⟨b, h, i, hi⟩
        · rw [hd] at h; simp [hv] at h
        · exact hno i hi
      refine ⟨m, (hasKey_congr ?_ ?_).mpr h⟩
      · simp only; rw [get_set_ne hm]
      · constructor
        · rintro ⟨i, hi⟩
          rcases get_set_cases hi with ⟨_, h⟩ | ⟨_, hi⟩
          · cases h; exact absurd rfl hm
          · exact ⟨i, hi⟩
        · rintro ⟨i, hi⟩
          refine ⟨i, ?_⟩
          simp only
          rw [get_set_ne]
          · exact hi
          · rintro rfl
            rw [ht] at hi
            cases hi

/-- Publishing the key. -/
theorem settled_publish {s : St} {t k m₀ : Nat} {d : Mod} (ht : s.ths[t]? = some (.publish m₀))
    (hd : s.mods[m₀]? = some d) :
    Settled { s with mods := s.mods.set m₀ { d with flag := 2 }, ths := s.ths.set t (.ready m₀) } k ↔ Settled s k := by
  have hv' : ({ d with flag := 2 } : Mod).view = (d.key, true) := by simp [Mod.view]
  have hset : ∀ m, (∃ i : Nat, (s.ths.set t (.ready m₀))[i]? = some (PC.setKey m k)) ↔ ∃ i : Nat, s.ths[i]? = some (PC.setKey m k) := by
    intro m
    constructor
    · rintro ⟨i, hi⟩
      rcases get_set_cases hi with ⟨_, h⟩ | ⟨_, hi⟩
      · cases h
      · exact ⟨i, hi⟩
    · rintro ⟨i, hi⟩
      refine ⟨i, ?_⟩
      rw [get_set_ne]
      · exact hi
      · rintro rfl
        rw [ht] at hi
        cases hi
  refine settled_congr (fun m => ?_) hset
  by_cases hm : m₀ = m
  · subst hm
    unfold HasKey
    simp only [get_set_self hd, hd, Option.map_some, hv', show d.view = (d.key, decide (d.flag = 2)) from rfl, Option.some.injEq,
      Prod.mk.injEq, and_true]
    constructor
    · rintro (h | ⟨b, ⟨h, _⟩, _⟩)
      · exact Or.inr ⟨_, ⟨h, rfl⟩, t, ht⟩
      · exact Or.inr ⟨_, ⟨h, rfl⟩, t, ht⟩
    · rintro (h | ⟨b, ⟨h, _⟩, _⟩)
      · exact Or.inl h.1
      · exact Or.inl h
  · refine hasKey_congr ?_ ?_
    · simp only; rw [get_set_ne hm]
    · constructor
      · rintro ⟨i, hi⟩
        rcases get_set_cases hi with ⟨_, h⟩ | ⟨_, hi⟩
        · cases h
        · exact ⟨i, hi⟩
      · rintro ⟨i, hi⟩
        refine ⟨i, ?_⟩
        simp only
        rw [get_set_ne]
        · exact hi
        · rintro rfl
          rw [ht] at hi
          cases hi
          exact hm rfl

structure KInv (s : St) : Prop where
  nodup : s.live.Nodup
  held : ∀ k, s.ths.countP (PC.holds k) ≤ 1
  heldLive : ∀ k, 0 < s.ths.countP (PC.holds k) → k ∈ s.live
  sem : ∀ k, s.sem = some k → Settled s k
  used : ∀ k, Settled s k → k ∈ s.live ∧ s.ths.countP (PC.holds k) = 0
  /-- nothing is leaked -/
  owned : ∀ k, k ∈ s.live → 0 < s.ths.countP (PC.holds k) ∨ Settled s k

theorem kinv_init (c n : Nat) : KInv (init c n) := by
  have hz : ∀ k, (init c n).ths.countP (PC.holds k) = 0 := fun k => countP_replicate_false rfl n
  refine ⟨List.nodup_nil, fun k => by rw [hz]; omega, fun k h => by rw [hz] at h; omega, (fun k h => nomatch h), ?_,
    (fun k h => nomatch h)⟩
  rintro k (⟨i, m, h⟩ | ⟨m, h | ⟨b, _, i, h⟩⟩)
  · cases get_replicate h
  · simp only [init, List.getElem?_replicate] at h
    split at h <;> simp [mod0, Mod.view] at h
  · cases get_replicate h

/-- A step that changes neither the slots nor who has them. -/
theorem kinv_same {s s' : St} (K : KInv s) (hl : s'.live = s.live) (hs : s'.sem = s.sem)
    (hh : ∀ k, s'.ths.countP (PC.holds k) = s.ths.countP (PC.holds k)) (ht : ∀ k, Settled s' k ↔ Settled s k) :
    KInv s' := by
  refine ⟨hl ▸ K.nodup, fun k => by rw [hh]; exact K.held k, fun k => by rw [hh, hl]; exact K.heldLive k,
    fun k => by rw [hs, ht]; exact K.sem k, fun k => by rw [ht, hl, hh]; exact K.used k,
    fun k => by rw [hl, hh, ht]; exact K.owned k⟩

theorem step_kinv {tr : List Ev} {s : St} {l : Nat × Act} {s' : St} {es : List Ev}
    (I : Inv tr s) (K : KInv s) (h : step s l = some (s', es)) : KInv s' := by
  obtain ⟨t, a⟩ := l
  obtain ⟨pc, ht, hl⟩ := step_lstep h
  have cnt : ∀ {pc' : PC} (k : Nat), pc'.holds k = pc.holds k →
      (s.ths.set t pc').countP (PC.holds k) = s.ths.countP (PC.holds k) := by
    intro pc' k hk
    have := countP_set (p := PC.holds k) (b := pc') ht
    rw [hk] at this
    omega
  -- a thread inside has the module to itself
  have inside : ∀ {m : Nat} {d : Mod}, s.mods[m]? = some d → pc.crit m = true →
      d.flag = 1 ∧ ∀ (i : Nat) (q : PC), s.ths[i]? = some q → q.crit m = true → i = t := by
    intro m d hd hc
    obtain ⟨p, _, M⟩ := I m d hd
    have hp := M.crit t pc ht hc
    subst hp
    refine ⟨M.rel, fun i q hq hqc => ?_⟩
    have := M.crit i q hq hqc
    cases this
    rfl
  cases hl with
  | call hm => exact kinv_same K rfl rfl (fun k => cnt k rfl) (fun k => settled_plain ht rfl rfl rfl fun _ => rfl)
  | loadDone hd hf =>
    exact kinv_same K rfl rfl (fun k => cnt k rfl) (fun k => settled_plain ht rfl rfl rfl fun _ => rfl)
  | loadElse hd ha =>
    exact kinv_same K rfl rfl (fun k => cnt k rfl) (fun k => settled_plain ht rfl rfl rfl fun _ => rfl)
  | casBegin hd hf =>
    exact kinv_same K rfl rfl (fun k => cnt k rfl)
      (fun k => settled_plain ht rfl rfl rfl (view_set hd (by simp [Mod.view, hf])))
  | casDone hd hf =>
    exact kinv_same K rfl rfl (fun k => cnt k rfl) (fun k => settled_plain ht rfl rfl rfl fun _ => rfl)
  | casSpin hd h0 h2 =>
    exact kinv_same K rfl rfl (fun k => cnt k rfl) (fun k => settled_plain ht rfl rfl rfl fun _ => rfl)
  | openOk hd hs =>
    exact kinv_same K rfl rfl (fun k => cnt k rfl)
      (fun k => settled_plain ht rfl rfl rfl (view_set hd rfl))
  | openNone hd hs =>
    exact kinv_same K rfl rfl (fun k => cnt k rfl)
      (fun k => settled_plain ht rfl rfl rfl (view_set hd rfl))
  | @allocOk m k₀ hk =>
    have hset : ∀ k, Settled { s with live := k₀ :: s.live, ths := s.ths.set t (.create m k₀) } k ↔ Settled s k :=
      fun k => settled_plain ht rfl rfl rfl fun _ => rfl
    have hz : s.ths.countP (PC.holds k₀) = 0 := by
      have := K.heldLive k₀
      apply Classical.byContradiction
      intro h0
      exact hk (this (by omega))
    have hc : ∀ k, (s.ths.set t (.create m k₀)).countP (PC.holds k) =
        s.ths.countP (PC.holds k) + (if k₀ = k then 1 else 0) := by
      intro k
      have := countP_set (p := PC.holds k) (b := .create m k₀) ht
      simp only [PC.holds, b2n] at this
      split <;> simp_all
    refine ⟨List.nodup_cons.mpr ⟨hk, K.nodup⟩, ?_, ?_, ?_, ?_, ?_⟩
    · intro k
      simp only [hc]
      have := K.held k
      split
      · next h => subst h; omega
      · omega
    · intro k h
      simp only [hc] at h
      split at h
      · next hk => subst hk; simp
      · exact List.mem_cons_of_mem _ (K.heldLive k (by omega))
    · intro k h
      exact (hset k).mpr (K.sem k h)
    · intro k h
      have := K.used k ((hset k).mp h)
      refine ⟨List.mem_cons_of_mem _ this.1, ?_⟩
      simp only [hc]
      split
      · next h => subst h; exact absurd this.1 hk
      · exact this.2
    · intro k h
      simp only [hc]
      rcases List.mem_cons.mp h with h | h
      · subst h; left; simp
      · rcases K.owned k h with h | h
        · left; omega
        · right; exact (hset k).mpr h
  | allocFail =>
    exact kinv_same K rfl rfl (fun k => cnt k rfl) (fun k => settled_plain ht rfl rfl rfl fun _ => rfl)
  | @createNew m k₀ d hd hs =>
    have hset : ∀ k, Settled { s with mods := s.mods.set m d.hold, sem := some k₀, ths := s.ths.set t (.setKey m k₀) } k ↔
        Settled s k ∨ k = k₀ := fun k => settled_choose ht rfl rfl (view_set hd rfl)
    have hone : 1 ≤ s.ths.countP (PC.holds k₀) := countP_pos_of_get ht (by simp [PC.holds])
    have hc : ∀ k, (s.ths.set t (.setKey m k₀)).countP (PC.holds k) + (if k₀ = k then 1 else 0) =
        s.ths.countP (PC.holds k) := by
      intro k
      have := countP_set (p := PC.holds k) (b := .setKey m k₀) ht
      simp only [PC.holds, b2n] at this
      split <;> simp_all
    refine ⟨K.nodup, ?_, ?_, ?_, ?_, ?_⟩
    · intro k; have := K.held k; have := hc k; simp only; omega
    · intro k h; have := hc k; simp only at h; exact K.heldLive k (by omega)
    · intro k h; cases h; exact (hset _).mpr (Or.inr rfl)
    · intro k h
      have hck := hc k
      simp only
      rcases (hset k).mp h with h | h
      · have := K.used k h
        exact ⟨this.1, by omega⟩
      · subst h
        have := K.held k
        simp at hck
        exact ⟨K.heldLive k (by omega), by omega⟩
    · intro k h
      have hck := hc k
      simp only
      rcases K.owned k h with h | h
      · by_cases hk : k₀ = k
        · right; exact (hset k).mpr (Or.inr hk.symm)
        · left; simp [hk] at hck; omega
      · right; exact (hset k).mpr (Or.inl h)
  | @createOld m k₀ k' d hd hs =>
    exact kinv_same K rfl rfl (fun k => cnt k rfl)
      (fun k => settled_plain ht rfl rfl rfl (view_set hd rfl))
  | @createFail m k₀ d hd =>
    have hset : ∀ k, Settled { s with mods := s.mods.set m d.noHold, ths := s.ths.set t (.setKey m k₀) } k ↔
        Settled s k ∨ k = k₀ := fun k => settled_choose ht rfl rfl (view_set hd rfl)
    have hone : 1 ≤ s.ths.countP (PC.holds k₀) := countP_pos_of_get ht (by simp [PC.holds])
    have hc : ∀ k, (s.ths.set t (.setKey m k₀)).countP (PC.holds k) + (if k₀ = k then 1 else 0) =
        s.ths.countP (PC.holds k) := by
      intro k
      have := countP_set (p := PC.holds k) (b := .setKey m k₀) ht
      simp only [PC.holds, b2n] at this
      split <;> simp_all
    refine ⟨K.nodup, ?_, ?_, ?_, ?_, ?_⟩
    · intro k; have := K.held k; have := hc k; simp only; omega
    · intro k h; have := hc k; simp only at h; exact K.heldLive k (by omega)
    · intro k h; exact (hset _).mpr (Or.inl (K.sem k h))
    · intro k h
      have hck := hc k
      simp only
      rcases (hset k).mp h with h | h
      · have := K.used k h
        exact ⟨this.1, by omega⟩
      · subst h
        have := K.held k
        simp at hck
        exact ⟨K.heldLive k (by omega), by omega⟩
    · intro k h
      have hck := hc k
      simp only
      rcases K.owned k h with h | h
      · by_cases hk : k₀ = k
        · right; exact (hset k).mpr (Or.inr hk.symm)
        · left; simp [hk] at hck; omega
      · right; exact (hset k).mpr (Or.inl h)
  | @free m k₀ =>
    have hset : ∀ k, Settled { s with live := s.live.erase k₀, ths := s.ths.set t (.query m) } k ↔ Settled s k :=
      fun k => settled_plain ht rfl rfl rfl fun _ => rfl
    have hone : 1 ≤ s.ths.countP (PC.holds k₀) := countP_pos_of_get ht (by simp [PC.holds])
    have hc : ∀ k, (s.ths.set t (.query m)).countP (PC.holds k) + (if k₀ = k then 1 else 0) =
        s.ths.countP (PC.holds k) := by
      intro k
      have := countP_set (p := PC.holds k) (b := .query m) ht
      simp only [PC.holds, b2n] at this
      split <;> simp_all
    have hmem : ∀ k, k ∈ s.live.erase k₀ ↔ k ≠ k₀ ∧ k ∈ s.live := fun k => K.nodup.mem_erase_iff
    refine ⟨K.nodup.erase _, ?_, ?_, ?_, ?_, ?_⟩
    · intro k; have := K.held k; have := hc k; simp only; omega
    · intro k h
      have hck := hc k
      have := K.held k
      simp only at h
      refine (hmem k).mpr ⟨?_, K.heldLive k (by omega)⟩
      rintro rfl
      simp at hck
      omega
    · intro k h; exact (hset _).mpr (K.sem k h)
    · intro k h
      have hck := hc k
      have := K.used k ((hset k).mp h)
      simp only
      refine ⟨(hmem k).mpr ⟨?_, this.1⟩, by omega⟩
      rintro rfl
      omega
    · intro k h
      have hck := hc k
      obtain ⟨h1, h2⟩ := (hmem k).mp h
      simp only
      rcases K.owned k h2 with h | h
      · left; simp [Ne.symm h1] at hck; omega
      · right; exact (hset k).mpr h
  | @queryOk m k₀ hk =>
    have hset : ∀ k, Settled { s with ths := s.ths.set t (.setKey m k₀) } k ↔ Settled s k ∨ k = k₀ :=
      fun k => settled_choose ht rfl rfl fun _ => rfl
    refine kinv_same K rfl rfl (fun k => cnt k rfl) (fun k => (hset k).trans ⟨?_, Or.inl⟩)
    rintro (h | rfl)
    · exact h
    · exact K.sem _ hk
  | queryFail =>
    exact kinv_same K rfl rfl (fun k => cnt k rfl) (fun k => settled_plain ht rfl rfl rfl fun _ => rfl)
  | @alloc2Ok m k₀ hk =>
    have hset : ∀ k, Settled { s with live := k₀ :: s.live, ths := s.ths.set t (.setKey m k₀) } k ↔
        Settled s k ∨ k = k₀ := fun k => settled_choose ht rfl rfl fun _ => rfl
    have hz : s.ths.countP (PC.holds k₀) = 0 := by
      have := K.heldLive k₀
      apply Classical.byContradiction
      intro h0
      exact hk (this (by omega))
    have hc : ∀ k, (s.ths.set t (.setKey m k₀)).countP (PC.holds k) = s.ths.countP (PC.holds k) := fun k => cnt k rfl
    refine ⟨List.nodup_cons.mpr ⟨hk, K.nodup⟩, ?_, ?_, ?_, ?_, ?_⟩
    · intro k; simp only [hc]; exact K.held k
    · intro k h; simp only [hc] at h; exact List.mem_cons_of_mem _ (K.heldLive k h)
    · intro k h; exact (hset k).mpr (Or.inl (K.sem k h))
    · intro k h
      simp only [hc]
      rcases (hset k).mp h with h | h
      · exact ⟨List.mem_cons_of_mem _ (K.used k h).1, (K.used k h).2⟩
      · subst h; exact ⟨by simp, hz⟩
    · intro k h
      simp only [hc]
      rcases List.mem_cons.mp h with h | h
      · right; exact (hset k).mpr (Or.inr h)
      · rcases K.owned k h with h | h
        · left; exact h
        · right; exact (hset k).mpr (Or.inl h)
  | alloc2Fail =>
    exact kinv_same K rfl rfl (fun k => cnt k rfl) (fun k => settled_plain ht rfl rfl rfl fun _ => rfl)
  | @setKey m k₀ d hd =>
    obtain ⟨hf, huniq⟩ := inside hd (by simp [PC.crit])
    refine kinv_same K rfl rfl (fun k => cnt k rfl) (fun k => settled_store ht hd hf ?_)
    intro i hi
    have := huniq i _ hi (by simp [PC.crit])
    subst this
    rw [ht] at hi
    cases hi
  | publish hd => exact kinv_same K rfl rfl (fun k => cnt k rfl) (fun k => settled_publish ht hd)
  | fail hd =>
    obtain ⟨hf, huniq⟩ := inside hd (by simp [PC.crit])
    exact kinv_same K rfl rfl (fun k => cnt k rfl)
      (fun k => settled_plain ht rfl rfl rfl (view_set hd (by simp [Mod.view, hf])))
  | ready hd => exact kinv_same K rfl rfl (fun k => cnt k rfl) (fun k => settled_plain ht rfl rfl rfl fun _ => rfl)

theorem exec_kinv {c n : Nat} {tr : List Ev} {s : St} (h : Exec step (init c n) tr s) : KInv s := by
  have : Inv tr s ∧ KInv s :=
    h.invariant (fun tr s => Inv tr s ∧ KInv s) ⟨inv_init c n, kinv_init c n⟩
      (fun tr s l s' es I hs => ⟨step_inv tr s l s' es I.1 hs, step_kinv I.1 I.2 hs⟩)
  exact this.2

end Verif.TimerInit
