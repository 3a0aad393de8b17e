import Verif.Model.Failures

/-! Rules for proving contracts of programs in `Verif.OsCall.M`. -/

namespace Verif.Failures.Proof

open Verif.OsCall

/-- A contract: which answers are assumed (`D`), after which calls a function must not return normally (`N`), what exceptions must report (`T`), which
calls allow an assertion (`A`) and termination (`X`). -/
structure K where
  D : Call → Prop
  N : Call → Prop
  T : Call → Option Exc
  A : Call → Prop
  X : Call → Prop

def Good {α : Type} (k : K) (l : List Call) : Out α → Prop
  | .pending => True
  | .ret _ => ∀ c ∈ l, ¬ k.N c
  | .threw x => ∃ c ∈ l, k.T c = some x
  | .assertion => ∃ c ∈ l, k.A c
  | .terminated => ∃ c ∈ l, k.X c

/-- After the calls `l`, with the error code `e`, the program `m` keeps the contract. -/
def S {α : Type} (k : K) (l : List Call) (e : UInt32) (m : M α) : Prop :=
  ∀ as, (∀ c ∈ (m e as).log, k.D c) → Good k (l ++ (m e as).log) (m e as).out

def Rep {α : Type} (k : K) (m : M α) : Prop := ∀ e, S k [] e m

theorem Good.mono {α : Type} {k : K} {l l' : List Call} {o : Out α} (h : Good k l o) (hs : ∀ c ∈ l, c ∈ l')
    (hn : ∀ c ∈ l', c ∈ l ∨ ¬ k.N c) : Good k l' o := by
  cases o with
  | pending => trivial
  | ret a =>
    intro c hc
    rcases hn c hc with h' | h'
    · exact h c h'
    · exact h'
  | threw x => obtain ⟨c, hc, h⟩ := h; exact ⟨c, hs c hc, h⟩
  | assertion => obtain ⟨c, hc, h⟩ := h; exact ⟨c, hs c hc, h⟩
  | terminated => obtain ⟨c, hc, h⟩ := h; exact ⟨c, hs c hc, h⟩

section rules
variable {α β σ : Type} {k : K} {l : List Call} {e : UInt32}

theorem s_pure {a : α} (h : ∀ c ∈ l, ¬ k.N c) : S k l e (pure a) := by
  intro as hd
  show Good k (l ++ []) (.ret a)
  rw [List.append_nil]; exact h

theorem s_throw {c : Cls} {code : Code} (h : ∃ c' ∈ l, k.T c' = some ⟨c, code⟩) : S k l e (throwExc c code : M α) := by
  intro as hd
  show Good k (l ++ []) (.threw _)
  rw [List.append_nil]; exact h

theorem s_throw_bind {c : Cls} {code : Code} {f : α → M β} (h : ∃ c' ∈ l, k.T c' = some ⟨c, code⟩) :
    S k l e ((throwExc c code : M α) >>= f) := by
  intro as hd
  show Good k (l ++ []) (.threw _)
  rw [List.append_nil]; exact h

theorem s_err_bind {f : UInt32 → M β} (h : S k l e (f e)) : S k l e (getLastError >>= f) := by
  intro as hd
  have := h as hd
  exact this

theorem s_pure_bind {a : α} {f : α → M β} (h : S k l e (f a)) : S k l e (pure a >>= f) := by
  intro as hd
  exact h as hd

theorem s_verify {d b : Bool} (h1 : d = true → b = false → ∃ c ∈ l, k.A c) (h2 : (d = true → b = true) → ∀ c ∈ l, ¬ k.N c) :
    S k l e (verify d b) := by
  intro as hd
  cases d <;> cases b
  · show Good k (l ++ []) (.ret ()); rw [List.append_nil]; exact h2 (by simp)
  · show Good k (l ++ []) (.ret ()); rw [List.append_nil]; exact h2 (by simp)
  · show Good k (l ++ []) (.assertion); rw [List.append_nil]; exact h1 rfl rfl
  · show Good k (l ++ []) (.ret ()); rw [List.append_nil]; exact h2 (by simp)

theorem s_verify_bind {d b : Bool} {f : Unit → M β} (h1 : d = true → b = false → ∃ c ∈ l, k.A c)
    (h2 : (d = true → b = true) → S k l e (f ())) : S k l e (verify d b >>= f) := by
  intro as hd
  cases d <;> cases b
  · exact h2 (by simp) as hd
  · exact h2 (by simp) as hd
  · show Good k (l ++ []) (.assertion); rw [List.append_nil]; exact h1 rfl rfl
  · exact h2 (by simp) as hd

theorem s_sys_bind {a : Api} {f : Ans → M β} (h : ∀ r, k.D ⟨a, r⟩ → S k (l ++ [⟨a, r⟩]) r.err (f r)) :
    S k l e (sys a >>= f) := by
  intro as hd
  cases as with
  | nil => exact trivial
  | cons r rest =>
    have hd' : ∀ c ∈ [(⟨a, r⟩ : Call)] ++ (f r r.err rest).log, k.D c := hd
    have := h r (hd' _ (by simp)) rest (fun c hc => hd' c (by simp [hc]))
    rw [List.append_assoc] at this
    exact this

theorem s_sys {a : Api} (h : ∀ r, k.D ⟨a, r⟩ → ∀ c ∈ l ++ [⟨a, r⟩], ¬ k.N c) : S k l e (sys a) := by
  intro as hd
  cases as with
  | nil => exact trivial
  | cons r rest => exact h r (hd ⟨a, r⟩ (by show _ ∈ [_]; simp))

theorem s_bind {m : M α} {f : α → M β} (hm : Rep k m) (hf : ∀ a e', S k l e' (f a)) : S k l e (m >>= f) := by
  intro as hd
  show Good k (l ++ (OsCall.bind m f e as).log) (OsCall.bind m f e as).out
  have hd' : ∀ c ∈ (OsCall.bind m f e as).log, k.D c := hd
  have hm' := hm e as
  unfold OsCall.bind at hd' ⊢
  dsimp only at hd' ⊢
  cases ho : (m e as).out with
  | ret a =>
    rw [ho] at hm'
    simp only [ho] at hd' ⊢
    have h1 := hm' (fun c hc => hd' c (by simp [hc]))
    have h2 := hf a (m e as).err (m e as).rest (fun c hc => hd' c (by simp [hc]))
    refine h2.mono (fun c hc => ?_) (fun c hc => ?_)
    · simp only [List.mem_append] at hc ⊢; grind
    · simp only [List.mem_append] at hc ⊢
      rcases hc with hc | hc | hc
      · exact .inl (.inl hc)
      · exact .inr (h1 c (by simpa using hc))
      · exact .inl (.inr hc)
  | pending => exact trivial
  | threw x =>
    rw [ho] at hm'
    simp only [ho] at hd' ⊢
    obtain ⟨c, hc, h⟩ := hm' hd'
    exact ⟨c, by simp at hc; simp [hc], h⟩
  | assertion =>
    rw [ho] at hm'
    simp only [ho] at hd' ⊢
    obtain ⟨c, hc, h⟩ := hm' hd'
    exact ⟨c, by simp at hc; simp [hc], h⟩
  | terminated =>
    rw [ho] at hm'
    simp only [ho] at hd' ⊢
    obtain ⟨c, hc, h⟩ := hm' hd'
    exact ⟨c, by simp at hc; simp [hc], h⟩

theorem s_rep {m : M α} (hm : Rep k m) (hl : ∀ c ∈ l, ¬ k.N c) : S k l e m := by
  intro as hd
  refine (hm e as hd).mono (fun c hc => ?_) (fun c hc => ?_)
  · simp only [List.nil_append] at hc; simp [hc]
  · simp only [List.mem_append] at hc
    rcases hc with hc | hc
    · exact .inr (hl c hc)
    · exact .inl (by simpa using hc)

theorem s_noexcept {m : M α} {T' : Call → Option Exc} (h : S { k with T := T' } l e m)
    (hT : ∀ c x, T' c = some x → k.X c) : S k l e (noexcept m) := by
  intro as hd
  have hlog : (noexcept m e as).log = (m e as).log := by
    unfold noexcept; dsimp only; split <;> rfl
  rw [hlog] at hd ⊢
  have h' := h as hd
  unfold noexcept
  dsimp only
  cases ho : (m e as).out with
  | threw x =>
    rw [ho] at h'
    obtain ⟨c, hc, h⟩ := h'
    exact ⟨c, hc, hT _ _ h⟩
  | ret a => simp only [ho]; rw [ho] at h'; exact h'
  | pending => simp only [ho]; exact trivial
  | assertion => simp only [ho]; rw [ho] at h'; exact h'
  | terminated => simp only [ho]; rw [ho] at h'; exact h'

/-- A block with a destructor.  `T'`: what the destructor may throw; if the block may throw too, that terminates the process. -/
theorem s_guarded {m : M α} {dtor : M Unit} {T' : Call → Option Exc} (hm : S k l e m)
    (hd' : Rep { k with T := T' } dtor) (hT : ∀ c x, T' c = some x → k.T c = some x ∧ k.X c) :
    S k l e (guarded m dtor) := by
  intro as hd
  unfold guarded at hd ⊢
  dsimp only at hd ⊢
  have hm' := hm as
  have hd2 := hd' (m e as).err (m e as).rest
  cases ho : (m e as).out with
  | ret a =>
    rw [ho] at hm'
    simp only [ho] at hd ⊢
    have h1 := hm' (fun c hc => hd c (by simp [hc]))
    have h2 := hd2 (fun c hc => hd c (by simp [hc]))
    simp only [List.nil_append] at h2
    cases ho2 : (dtor (m e as).err (m e as).rest).out with
    | ret _ =>
      rw [ho2] at h2
      intro c hc
      simp only [List.mem_append] at hc
      rcases hc with hc | hc | hc
      · exact h1 c (by simp [hc])
      · exact h1 c (by simp [hc])
      · exact h2 c hc
    | threw x => rw [ho2] at h2; obtain ⟨c, hc, h⟩ := h2; exact ⟨c, by simp [hc], (hT c x h).1⟩
    | pending => exact trivial
    | assertion => rw [ho2] at h2; obtain ⟨c, hc, h⟩ := h2; exact ⟨c, by simp [hc], h⟩
    | terminated => rw [ho2] at h2; obtain ⟨c, hc, h⟩ := h2; exact ⟨c, by simp [hc], h⟩
  | threw x =>
    rw [ho] at hm'
    simp only [ho] at hd ⊢
    have h1 := hm' (fun c hc => hd c (by simp [hc]))
    have h2 := hd2 (fun c hc => hd c (by simp [hc]))
    simp only [List.nil_append] at h2
    cases ho2 : (dtor (m e as).err (m e as).rest).out with
    | ret _ => obtain ⟨c, hc, h⟩ := h1; exact ⟨c, by simp only [List.mem_append] at hc ⊢; grind, h⟩
    | threw y => rw [ho2] at h2; obtain ⟨c, hc, h⟩ := h2; exact ⟨c, by simp [hc], (hT c y h).2⟩
    | pending => exact trivial
    | assertion => rw [ho2] at h2; obtain ⟨c, hc, h⟩ := h2; exact ⟨c, by simp [hc], h⟩
    | terminated => rw [ho2] at h2; obtain ⟨c, hc, h⟩ := h2; exact ⟨c, by simp [hc], h⟩
  | pending => simp only [ho]; exact trivial
  | assertion => simp only [ho] at hd ⊢; rw [ho] at hm'; exact hm' hd
  | terminated => simp only [ho] at hd ⊢; rw [ho] at hm'; exact hm' hd

theorem s_rethrowing {m : M α} {h : M Unit} (hm : S k l e m) (hh : Rep k h) : S k l e (rethrowing m h) := by
  intro as hd
  unfold rethrowing at hd ⊢
  dsimp only at hd ⊢
  have hm' := hm as
  have hd2 := hh (m e as).err (m e as).rest
  cases ho : (m e as).out with
  | ret a => simp only [ho] at hd ⊢; rw [ho] at hm'; exact hm' hd
  | threw x =>
    rw [ho] at hm'
    simp only [ho] at hd ⊢
    have h1 := hm' (fun c hc => hd c (by simp [hc]))
    have h2 := hd2 (fun c hc => hd c (by simp [hc]))
    simp only [List.nil_append] at h2
    cases ho2 : (h (m e as).err (m e as).rest).out with
    | ret _ => obtain ⟨c, hc, h⟩ := h1; exact ⟨c, by simp only [List.mem_append] at hc ⊢; grind, h⟩
    | threw y => rw [ho2] at h2; obtain ⟨c, hc, h⟩ := h2; exact ⟨c, by simp [hc], h⟩
    | pending => exact trivial
    | assertion => rw [ho2] at h2; obtain ⟨c, hc, h⟩ := h2; exact ⟨c, by simp [hc], h⟩
    | terminated => rw [ho2] at h2; obtain ⟨c, hc, h⟩ := h2; exact ⟨c, by simp [hc], h⟩
  | pending => simp only [ho]; exact trivial
  | assertion => simp only [ho] at hd ⊢; rw [ho] at hm'; exact hm' hd
  | terminated => simp only [ho] at hd ⊢; rw [ho] at hm'; exact hm' hd

theorem rep_loop {api : σ → Api} {body : σ → Ans → M (σ ⊕ α)}
    (h : ∀ s a, k.D ⟨api s, a⟩ → S k [⟨api s, a⟩] a.err (body s a)) (s : σ) : Rep k (loop api body s) := by
  have main : ∀ (n : Nat) (s : σ) (e : UInt32) (as : List Ans), as.length = n →
      (∀ c ∈ (loop api body s e as).log, k.D c) → Good k ([] ++ (loop api body s e as).log) (loop api body s e as).out := by
   intro n
   induction n using Nat.strongRecOn with
   | ind n ih =>
    intro s e as hn hd
    cases as with
    | nil => unfold loop; exact trivial
    | cons a as' =>
      subst hn
      unfold loop at hd ⊢
      have hb := h s a
      dsimp only at hd ⊢
      have hb' : (∀ c ∈ (body s a a.err as').log, k.D c) → k.D ⟨api s, a⟩ →
          Good k (⟨api s, a⟩ :: (body s a a.err as').log) (body s a a.err as').out := fun h1 h2 => hb h2 as' h1
      have hle := (body s a a.err as').le
      cases ho : (body s a a.err as').out with
      | ret x =>
        rw [ho] at hb'
        cases x with
        | inl s' =>
          simp only [ho] at hd ⊢
          have h1 := hb' (fun c hc => hd c (by simp [hc])) (hd _ (by simp))
          have h2 := ih (body s a a.err as').rest.length (by simp only [List.length_cons]; omega) s' (body s a a.err as').err
            (body s a a.err as').rest rfl (fun c hc => hd c (by simp [hc]))
          simp only [List.nil_append] at h2 ⊢
          refine h2.mono (fun c hc => by simp [hc]) (fun c hc => ?_)
          simp only [List.mem_cons, List.mem_append] at hc
          rcases hc with hc | hc | hc
          · exact .inr (h1 c (by simp [hc]))
          · exact .inr (h1 c (by simp [hc]))
          · exact .inl hc
        | inr x =>
          simp only [ho] at hd ⊢
          exact hb' (fun c hc => hd c (by simp [hc])) (hd _ (by simp))
      | pending => exact trivial
      | threw x =>
        rw [ho] at hb'
        simp only [ho] at hd ⊢
        exact hb' (fun c hc => hd c (by simp [hc])) (hd _ (by simp))
      | assertion =>
        rw [ho] at hb'
        simp only [ho] at hd ⊢
        exact hb' (fun c hc => hd c (by simp [hc])) (hd _ (by simp))
      | terminated =>
        rw [ho] at hb'
        simp only [ho] at hd ⊢
        exact hb' (fun c hc => hd c (by simp [hc])) (hd _ (by simp))
  exact fun e as => main as.length s e as rfl

theorem pthread_res (c : Cfg) (f : Api) (e : UInt32) (as : List Ans) :
    (pthread c f e as).out = .pending ∨
    ∃ (a : Ans) (l0 : List Call), (pthread c f e as).out = .ret a.res ∧ (pthread c f e as).log = l0 ++ [⟨f, a⟩] ∧
      (c.eintrBug = true → a.res ≠ EINTR) ∧ ∀ x ∈ l0, x.api = f ∧ x.ans.res = EINTR := by
  have main : ∀ (n : Nat) (e : UInt32) (as : List Ans), as.length = n →
      let m : M UInt32 := loop (fun _ => f) (fun _ r => pure (if r.res = EINTR then .inl () else .inr r.res)) ()
      (m e as).out = .pending ∨
      ∃ (a : Ans) (l0 : List Call), (m e as).out = .ret a.res ∧ (m e as).log = l0 ++ [⟨f, a⟩] ∧
        a.res ≠ EINTR ∧ ∀ x ∈ l0, x.api = f ∧ x.ans.res = EINTR := by
    intro n
    induction n using Nat.strongRecOn with
    | ind n ih =>
      intro e as hn
      cases as with
      | nil => left; unfold loop; rfl
      | cons r rest =>
        dsimp only
        unfold loop
        by_cases hr : r.res = EINTR
        · simp only [hr, if_true, pure]
          have := ih rest.length (by simp only [List.length_cons] at hn; omega) r.err rest rfl
          dsimp only at this
          rcases this with h | ⟨a, l0, h1, h2, h3, h4⟩
          · exact .inl h
          · refine .inr ⟨a, ⟨f, r⟩ :: l0, h1, ?_, h3, ?_⟩
            · simp only [pure] at h2; simp [h2]
            · intro x hx
              simp only [List.mem_cons] at hx
              rcases hx with rfl | hx
              · exact ⟨rfl, hr⟩
              · exact h4 x hx
        · simp only [hr, if_false, pure]
          exact .inr ⟨r, [], rfl, rfl, hr, by simp⟩
  unfold pthread
  split
  · rcases main as.length e as rfl with h | ⟨a, l0, h1, h2, h3, h4⟩
    · exact .inl h
    · exact .inr ⟨a, l0, h1, h2, fun _ => h3, h4⟩
  · rename_i hb
    cases as with
    | nil => exact .inl rfl
    | cons r rest => exact .inr ⟨r, [], rfl, rfl, fun h => absurd h hb, by simp⟩

/-- pthread.hpp 47-154: interruptions are no failures. -/
theorem s_pthread_bind {c : Cfg} {f : Api} {g : UInt32 → M β} (hn : ∀ r : Ans, r.res = EINTR → ¬ k.N ⟨f, r⟩)
    (h : ∀ r : Ans, k.D ⟨f, r⟩ → (c.eintrBug = true → r.res ≠ EINTR) → ∀ e', S k (l ++ [⟨f, r⟩]) e' (g r.res)) :
    S k l e (pthread c f >>= g) := by
  intro as hd
  have hp := pthread_res c f e as
  show Good k (l ++ (OsCall.bind (pthread c f) g e as).log) (OsCall.bind (pthread c f) g e as).out
  have hd' : ∀ c' ∈ (OsCall.bind (pthread c f) g e as).log, k.D c' := hd
  unfold OsCall.bind at hd' ⊢
  dsimp only at hd' ⊢
  rcases hp with ho | ⟨a, l0, ho, hl, ha, h0⟩
  · simp only [ho]; exact trivial
  · simp only [ho] at hd' ⊢
    rw [hl] at hd' ⊢
    have h1 := h a (hd' _ (by simp)) ha (pthread c f e as).err (pthread c f e as).rest (fun c hc => hd' c (by simp [hc]))
    refine h1.mono (fun x hx => ?_) (fun x hx => ?_)
    · simp only [List.mem_append, List.mem_singleton] at hx ⊢; grind
    · simp only [List.mem_append, List.mem_singleton] at hx ⊢
      rcases hx with hx | (hx | hx) | hx
      · exact .inl (.inl (.inl hx))
      · right
        obtain ⟨h2, h3⟩ := h0 x hx
        have := hn x.ans h3
        rw [← h2] at this
        exact this
      · exact .inl (.inl (.inr hx))
      · exact .inl (.inr hx)

/-- A call that never matters. -/
theorem s_skip_bind {a : Api} {f : Ans → M β} (hn : ∀ r : Ans, ¬ k.N ⟨a, r⟩) (h : ∀ r, k.D ⟨a, r⟩ → S k l r.err (f r)) :
    S k l e (sys a >>= f) := by
  refine s_sys_bind (fun r hr as hd => ?_)
  refine (h r hr as hd).mono (fun x hx => ?_) (fun x hx => ?_)
  · simp only [List.mem_append, List.mem_singleton] at hx ⊢; grind
  · simp only [List.mem_append, List.mem_singleton] at hx ⊢
    rcases hx with (hx | hx) | hx
    · exact .inl (.inl hx)
    · exact .inr (hx ▸ hn r)
    · exact .inl (.inr hx)

end rules

end Verif.Failures.Proof
