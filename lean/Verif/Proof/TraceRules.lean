import Verif.Proof.FailureRules

/-! Rules for what a program of `Verif.OsCall.M` has done when it ends, described by a state that each call changes. -/

namespace Verif.Failures.Trace

open Verif.OsCall

/-- Started in the state `g` with the error code `e`, the program ends as `Q` says, if the calls fulfil `D`. -/
def W {α G : Type} (D : Call → Prop) (d : G → Call → G) (g : G) (e : UInt32) (m : M α) (Q : Out α → G → Prop) : Prop :=
  ∀ as, (∀ c ∈ (m e as).log, D c) → Q (m e as).out ((m e as).log.foldl d g)

/-- `k` for a normal end, `Q` for the others. -/
def next {α β G : Type} (k : α → G → Prop) (Q : Out β → G → Prop) : Out α → G → Prop
  | .ret a => k a
  | .pending => Q .pending
  | .threw x => Q (.threw x)
  | .assertion => Q .assertion
  | .terminated => Q .terminated

section
variable {α β σ G : Type} {D : Call → Prop} {d : G → Call → G} {g : G} {e : UInt32}

theorem w_mono {m : M α} {Q Q' : Out α → G → Prop} (h : W D d g e m Q) (hq : ∀ o g', Q o g' → Q' o g') : W D d g e m Q' :=
  fun as hd => hq _ _ (h as hd)

theorem w_pure {a : α} {Q : Out α → G → Prop} (h : Q (.ret a) g) : W D d g e (pure a) Q := fun _ _ => h

theorem w_throw {c : Cls} {code : Code} {Q : Out α → G → Prop} (h : Q (.threw ⟨c, code⟩) g) : W D d g e (throwExc c code) Q :=
  fun _ _ => h

theorem w_throw_bind {c : Cls} {code : Code} {f : α → M β} {Q : Out β → G → Prop} (h : Q (.threw ⟨c, code⟩) g) :
    W D d g e ((throwExc c code : M α) >>= f) Q := fun _ _ => h

theorem w_err_bind {f : UInt32 → M β} {Q : Out β → G → Prop} (h : W D d g e (f e) Q) : W D d g e (getLastError >>= f) Q :=
  fun as hd => h as hd

theorem w_pure_bind {a : α} {f : α → M β} {Q : Out β → G → Prop} (h : W D d g e (f a) Q) : W D d g e (pure a >>= f) Q :=
  fun as hd => h as hd

theorem w_verify {dbg b : Bool} {Q : Out Unit → G → Prop} (h1 : dbg = true → b = false → Q .assertion g)
    (h2 : (dbg = true → b = true) → Q (.ret ()) g) : W D d g e (verify dbg b) Q := by
  intro as _
  cases dbg <;> cases b
  · exact h2 (by simp)
  · exact h2 (by simp)
  · exact h1 rfl rfl
  · exact h2 (by simp)

theorem w_verify_bind {dbg b : Bool} {f : Unit → M β} {Q : Out β → G → Prop} (h1 : dbg = true → b = false → Q .assertion g)
    (h2 : (dbg = true → b = true) → W D d g e (f ()) Q) : W D d g e (verify dbg b >>= f) Q := by
  intro as hd
  cases dbg <;> cases b
  · exact h2 (by simp) as hd
  · exact h2 (by simp) as hd
  · exact h1 rfl rfl
  · exact h2 (by simp) as hd

theorem w_sys {a : Api} {Q : Out Ans → G → Prop} (h0 : Q .pending g) (h : ∀ r, D ⟨a, r⟩ → Q (.ret r) (d g ⟨a, r⟩)) : W D d g e (sys a) Q := by
  intro as hd
  cases as with
  | nil => exact h0
  | cons r rest => exact h r (hd ⟨a, r⟩ (by show _ ∈ [_]; simp))

theorem w_sys_bind {a : Api} {f : Ans → M β} {Q : Out β → G → Prop} (h0 : Q .pending g)
    (h : ∀ r, D ⟨a, r⟩ → W D d (d g ⟨a, r⟩) r.err (f r) Q) : W D d g e (sys a >>= f) Q := by
  intro as hd
  cases as with
  | nil => exact h0
  | cons r rest =>
    have hd' : ∀ c ∈ [(⟨a, r⟩ : Call)] ++ (f r r.err rest).log, D c := hd
    exact h r (hd' _ (by simp)) rest (fun c hc => hd' c (by simp [hc]))

theorem w_bind {m : M α} {f : α → M β} {Q : Out β → G → Prop} (h : W D d g e m (next (fun a g' => ∀ e', W D d g' e' (f a) Q) Q)) :
    W D d g e (m >>= f) Q := by
  intro as hd
  have h' := h as
  show Q (OsCall.bind m f e as).out ((OsCall.bind m f e as).log.foldl d g)
  have hd' : ∀ c ∈ (OsCall.bind m f e as).log, D c := hd
  unfold OsCall.bind at hd' ⊢
  dsimp only at hd' ⊢
  cases ho : (m e as).out with
  | ret a =>
    rw [ho] at h'
    simp only [ho] at hd' ⊢
    have h2 := h' (fun c hc => hd' c (by simp [hc])) (m e as).err (m e as).rest (fun c hc => hd' c (by simp [hc]))
    rw [List.foldl_append]
    exact h2
  | pending => rw [ho] at h'; simp only [ho] at hd' ⊢; exact h' hd'
  | threw x => rw [ho] at h'; simp only [ho] at hd' ⊢; exact h' hd'
  | assertion => rw [ho] at h'; simp only [ho] at hd' ⊢; exact h' hd'
  | terminated => rw [ho] at h'; simp only [ho] at hd' ⊢; exact h' hd'

theorem w_noexcept {m : M α} {Q : Out α → G → Prop} (h : W D d g e m (fun o g' => match o with | .threw _ => Q .terminated g' | o => Q o g')) :
    W D d g e (noexcept m) Q := by
  intro as hd
  have hlog : (noexcept m e as).log = (m e as).log := by
    unfold noexcept; dsimp only; split <;> rfl
  rw [hlog] at hd ⊢
  have h' := h as hd
  unfold noexcept
  dsimp only
  cases ho : (m e as).out <;> simp only [ho] <;> rw [ho] at h' <;> exact h'

theorem w_guarded {m : M α} {dtor : M Unit} {Q : Out α → G → Prop}
    (h : W D d g e m (fun o g' => match o with
      | .ret a => ∀ e', W D d g' e' dtor (next (fun _ => Q (.ret a)) Q)
      | .threw x => ∀ e', W D d g' e' dtor (fun o g'' => match o with
        | .ret _ => Q (.threw x) g''
        | .threw _ => Q .terminated g''
        | .pending => Q .pending g''
        | .assertion => Q .assertion g''
        | .terminated => Q .terminated g'')
      | o => Q o g')) : W D d g e (guarded m dtor) Q := by
  intro as hd
  have h' := h as
  unfold guarded at hd ⊢
  dsimp only at hd ⊢
  cases ho : (m e as).out with
  | ret a =>
    rw [ho] at h'
    simp only [ho] at hd ⊢
    have h2 := h' (fun c hc => hd c (by simp [hc])) (m e as).err (m e as).rest (fun c hc => hd c (by simp [hc]))
    rw [List.foldl_append]
    cases ho2 : (dtor (m e as).err (m e as).rest).out <;> rw [ho2] at h2 <;> exact h2
  | threw x =>
    rw [ho] at h'
    simp only [ho] at hd ⊢
    have h2 := h' (fun c hc => hd c (by simp [hc])) (m e as).err (m e as).rest (fun c hc => hd c (by simp [hc]))
    rw [List.foldl_append]
    cases ho2 : (dtor (m e as).err (m e as).rest).out <;> rw [ho2] at h2 <;> exact h2
  | pending => simp only [ho] at hd ⊢; rw [ho] at h'; exact h' hd
  | assertion => simp only [ho] at hd ⊢; rw [ho] at h'; exact h' hd
  | terminated => simp only [ho] at hd ⊢; rw [ho] at h'; exact h' hd

theorem w_rethrowing {m : M α} {hdl : M Unit} {Q : Out α → G → Prop}
    (h : W D d g e m (fun o g' => match o with
      | .threw x => ∀ e', W D d g' e' hdl (next (fun _ => Q (.threw x)) Q)
      | o => Q o g')) : W D d g e (rethrowing m hdl) Q := by
  intro as hd
  have h' := h as
  unfold rethrowing at hd ⊢
  dsimp only at hd ⊢
  cases ho : (m e as).out with
  | ret a => simp only [ho] at hd ⊢; rw [ho] at h'; exact h' hd
  | threw x =>
    rw [ho] at h'
    simp only [ho] at hd ⊢
    have h2 := h' (fun c hc => hd c (by simp [hc])) (m e as).err (m e as).rest (fun c hc => hd c (by simp [hc]))
    rw [List.foldl_append]
    cases ho2 : (hdl (m e as).err (m e as).rest).out <;> rw [ho2] at h2 <;> exact h2
  | pending => simp only [ho] at hd ⊢; rw [ho] at h'; exact h' hd
  | assertion => simp only [ho] at hd ⊢; rw [ho] at h'; exact h' hd
  | terminated => simp only [ho] at hd ⊢; rw [ho] at h'; exact h' hd

/-- `I`: an invariant of the rounds. -/
theorem w_loop {api : σ → Api} {body : σ → Ans → M (σ ⊕ α)} {s : σ} {Q : Out α → G → Prop} (I : σ → G → Prop) (hi : I s g)
    (h0 : ∀ s g, I s g → Q .pending g)
    (h : ∀ s g a, I s g → D ⟨api s, a⟩ → W D d (d g ⟨api s, a⟩) a.err (body s a)
      (next (fun x g' => match x with | .inl s' => I s' g' | .inr y => Q (.ret y) g') Q)) :
    W D d g e (loop api body s) Q := by
  have main : ∀ (n : Nat) (s : σ) (g : G) (e : UInt32) (as : List Ans), as.length = n → I s g →
      (∀ c ∈ (loop api body s e as).log, D c) → Q (loop api body s e as).out ((loop api body s e as).log.foldl d g) := by
   intro n
   induction n using Nat.strongRecOn with
   | ind n ih =>
    intro s g e as hn hi hd
    cases as with
    | nil => unfold loop; exact h0 s g hi
    | cons a as' =>
      subst hn
      unfold loop at hd ⊢
      dsimp only at hd ⊢
      have hb := fun hD => h s g a hi hD as'
      have hle := (body s a a.err as').le
      cases ho : (body s a a.err as').out with
      | ret x =>
        rw [ho] at hb
        cases x with
        | inl s' =>
          simp only [ho] at hd ⊢
          have h1 := hb (hd _ (by simp)) (fun c hc => hd c (by simp [hc]))
          have h2 := ih (body s a a.err as').rest.length (by simp only [List.length_cons]; omega) s' _ (body s a a.err as').err
            (body s a a.err as').rest rfl h1 (fun c hc => hd c (by simp [hc]))
          rw [List.foldl_cons, List.foldl_append]
          exact h2
        | inr y =>
          simp only [ho] at hd ⊢
          exact hb (hd _ (by simp)) (fun c hc => hd c (by simp [hc]))
      | pending => rw [ho] at hb; simp only [ho] at hd ⊢; exact hb (hd _ (by simp)) (fun c hc => hd c (by simp [hc]))
      | threw x => rw [ho] at hb; simp only [ho] at hd ⊢; exact hb (hd _ (by simp)) (fun c hc => hd c (by simp [hc]))
      | assertion => rw [ho] at hb; simp only [ho] at hd ⊢; exact hb (hd _ (by simp)) (fun c hc => hd c (by simp [hc]))
      | terminated => rw [ho] at hb; simp only [ho] at hd ⊢; exact hb (hd _ (by simp)) (fun c hc => hd c (by simp [hc]))
  exact fun as => main as.length s g e as rfl hi

/-- pthread.hpp 47-154: interruptions do not change the state. -/
theorem w_pthread_bind {c : Cfg} {f : Api} {k : UInt32 → M β} {Q : Out β → G → Prop} (hq : Q .pending g)
    (hn : ∀ r : Ans, r.res = 4 → d g ⟨f, r⟩ = g)
    (h : ∀ r : Ans, D ⟨f, r⟩ → (c.eintrBug = true → r.res ≠ 4) → ∀ e', W D d (d g ⟨f, r⟩) e' (k r.res) Q) :
    W D d g e (pthread c f >>= k) Q := by
  refine w_bind ?_
  unfold pthread
  split
  · refine w_loop (fun _ g' => g' = g) rfl (fun _ g' hg => hg ▸ hq) (fun _ g' a hg hD => ?_)
    subst hg
    by_cases hr : a.res = EINTR
    · rw [if_pos hr]
      exact w_pure (hn a hr)
    · rw [if_neg hr]
      exact w_pure (fun e' => h a hD (fun _ => hr) e')
  · rename_i hb
    refine w_sys_bind hq (fun r hD => w_pure ?_)
    exact fun e' => h r hD (fun hh => absurd hh hb) e'

end

end Verif.Failures.Trace
