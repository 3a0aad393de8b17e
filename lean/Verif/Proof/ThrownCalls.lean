import Verif.Proof.AtomicObject
import Verif.Spec.ThrownCalls

/-! An atomic object does not notice calls that throw. -/

namespace Verif.Atomic

variable {D S : Type}

theorem dropThrown_isThrown (X : Nat → Bool) (r : List (Ev S)) : ∀ ev ∈ dropThrown X r, ev.isThrown = false := by
  fun_induction dropThrown X r with
  | case1 => intro ev h; cases h
  | case2 => assumption
  | case3 => assumption
  | case5 => assumption
  | _ =>
    intro ev h
    rcases List.mem_cons.mp h with h | h
    · subst h; rfl
    · exact ‹∀ ev ∈ dropThrown _ _, ev.isThrown = false› ev h

theorem dropThrown_isRet (X : Nat → Bool) (r : List (Ev S)) : (dropThrown X r).filter Ev.isRet = r.filter Ev.isRet := by
  fun_induction dropThrown X r with
  | case1 => rfl
  | case7 _ _ _ _ _ ih => simp [List.filter_cons, Ev.isRet, ih]
  | _ => simpa [Ev.isRet]

/-- The threads in `X` are treated as if they had not called. -/
def mask (X : Nat → Bool) (ths : List (Status S)) : List (Status S) := ths.mapIdx (fun i st => if X i then .idle else st)

theorem mask_get (X : Nat → Bool) (ths : List (Status S)) (t : Nat) :
    (mask X ths)[t]? = (ths[t]?).map (fun st => if X t then .idle else st) := by
  simp [mask]

theorem mask_get_out {X : Nat → Bool} {ths : List (Status S)} {t : Nat} {st : Status S} (h : ths[t]? = some st) (hx : X t = false) :
    (mask X ths)[t]? = some st := by
  simp [mask_get, h, hx]

/-- Equality of masked lists, position by position. -/
theorem mask_ext {X Y : Nat → Bool} {l m : List (Status S)}
    (h : ∀ i : Nat, (l[i]?).map (fun st => if X i then .idle else st) = (m[i]?).map (fun st => if Y i then .idle else st)) :
    mask X l = mask Y m := by
  apply List.ext_getElem?
  intro i
  rw [mask_get, mask_get, h i]

theorem mask_set {X : Nat → Bool} {ths : List (Status S)} {t : Nat} {st : Status S} (hx : X t = false) :
    mask X (ths.set t st) = (mask X ths).set t st := by
  apply List.ext_getElem?
  intro i
  simp only [mask_get, List.getElem?_set]
  by_cases hi : t = i
  · subst hi
    by_cases hl : t < ths.length <;> simp [hx, hl, mask]
  · simp [hi]

/-- A change at a masked place is not seen. -/
theorem mask_hidden {X Y : Nat → Bool} {ths : List (Status S)} {t : Nat} {st st' : Status S} (ht : ths[t]? = some st)
    (hX : X t = true ∨ st' = .idle) (hY : Y t = true ∨ st = .idle) (ho : ∀ i, i ≠ t → X i = Y i) :
    mask X (ths.set t st') = mask Y ths := by
  apply mask_ext
  intro i
  by_cases hi : t = i
  · subst hi
    rw [get_set_self ht, ht]
    rcases hX with h1 | h1 <;> rcases hY with h2 | h2 <;> simp [h1, h2]
  · rw [get_set_ne hi, ho i (Ne.symm hi)]

theorem drop_exec {O : Obj D S} {n : Nat} {tr : List (Ev S)} {a : St D S} (h : Exec (step O) (init O n) tr a) :
    ∀ X : Nat → Bool, (∀ t, X t = true → ∃ op e, a.ths[t]? = some (.pending op e)) →
      Exec (step O) (init O n) (dropThrown X tr.reverse).reverse ⟨a.d, mask X a.ths⟩ := by
  induction h with
  | init =>
    intro X hX
    have : mask X (init O n).ths = (init O n).ths := by
      apply List.ext_getElem?
      intro i
      rw [mask_get]
      cases hi : (init O n).ths[i]? with
      | none => rfl
      | some st =>
        have hid := get_replicate hi
        subst hid
        simp
    rw [this]
    exact Exec.init
  | @snoc tr a a' l es hex hs ih =>
    intro X hX
    -- an unmasked thread does the same step
    have same : ∀ {t : Nat} {act : Act S} {st st' : Status S} {d' : D}, a.ths[t]? = some st → X t = false →
        a' = ⟨d', a.ths.set t st'⟩ →
        step O ⟨a.d, mask X a.ths⟩ (t, act) = some (⟨d', (mask X a.ths).set t st'⟩, es) →
        dropThrown X (tr ++ es).reverse = es.reverse ++ dropThrown X tr.reverse →
        Exec (step O) (init O n) (dropThrown X (tr ++ es).reverse).reverse ⟨a'.d, mask X a'.ths⟩ := by
      intro t act st st' d' ht hx ha' hstep hdrop
      subst ha'
      rw [hdrop, List.reverse_append, List.reverse_reverse]
      simp only [mask_set hx]
      refine (ih X ?_).snoc hstep
      intro u hu
      have hne : t ≠ u := by rintro rfl; rw [hx] at hu; cases hu
      obtain ⟨op, e, h⟩ := hX u hu
      exact ⟨op, e, by rw [← get_set_ne hne (b := st')]; exact h⟩
    have notDone : ∀ {t : Nat} {st st' : Status S} {d' : D}, a.ths[t]? = some st → a' = ⟨d', a.ths.set t st'⟩ →
        (∀ op e, st' ≠ .pending op e) → X t = false := by
      intro t st st' d' ht ha' hst
      subst ha'
      cases hx : X t
      · rfl
      · obtain ⟨op, e, h⟩ := hX t hx
        simp only [get_set_self ht, Option.some.injEq] at h
        exact absurd h (hst op e)
    have others : ∀ {t : Nat} {st' : Status S} {Y : Nat → Bool} {d' : D}, a' = ⟨d', a.ths.set t st'⟩ →
        (∀ i, i ≠ t → X i = Y i) → (Y t = true → ∃ op e, a.ths[t]? = some (.pending op e)) →
        ∀ u, Y u = true → ∃ op e, a.ths[u]? = some (.pending op e) := by
      intro t st' Y d' ha' ho hY u hu
      subst ha'
      by_cases hne : t = u
      · subst hne; exact hY hu
      · obtain ⟨op, e, h⟩ := hX u (by rw [ho u (Ne.symm hne)]; exact hu)
        exact ⟨op, e, by rw [← get_set_ne hne (b := st')]; exact h⟩
    cases step_cases hs with
    | @call t op h =>
      cases hx : X t
      · exact same (act := .call op) h hx rfl (by simp [step, mask_get_out h hx]) (by simp [dropThrown, hx])
      · have hd : dropThrown X (tr ++ [Ev.called t op]).reverse = dropThrown (fun u => u != t && X u) tr.reverse := by
          simp [dropThrown, hx]
        rw [hd, mask_hidden (Y := fun u => u != t && X u) h (.inl hx) (.inr rfl) (by intro i hi; simp [hi])]
        exact ih _ (others (t := t) rfl (by intro i hi; simp [hi]) (by simp))
    | @expire t e h =>
      cases hx : X t
      · exact same (act := .expire) h hx rfl (by simp [step, mask_get_out h hx]) (by simp [dropThrown, hx])
      · have hd : dropThrown X (tr ++ [Ev.timedOut t]).reverse = dropThrown X tr.reverse := by
          simp [dropThrown, hx]
        rw [hd, mask_hidden (Y := X) h (.inl hx) (.inl hx) (by intros; rfl)]
        exact ih _ (others (t := t) rfl (by intros; rfl) (fun _ => ⟨_, _, h⟩))
    | @sig t x e h =>
      have hx := notDone h rfl (by simp)
      exact same (act := .lin) h hx rfl (by simp [step, mask_get_out h hx]) (by simp)
    | @take t k e h hr =>
      have hx := notDone h rfl (by simp)
      exact same (act := .lin) h hx rfl (by simp [step, mask_get_out h hx, hr]) (by simp)
    | @fail t k e h hr hm =>
      have hx := notDone h rfl (by simp)
      exact same (act := .lin) h hx rfl (by simp [step, mask_get_out h hx, hr, hm]) (by simp)
    | @ret t op r h =>
      have hx := notDone h rfl (by simp)
      exact same (act := .ret) h hx rfl (by simp [step, mask_get_out h hx]) (by simp [dropThrown])
    | @throw t op e h =>
      have hx := notDone h rfl (by simp)
      have hd : dropThrown X (tr ++ [Ev.threw t op]).reverse = dropThrown (fun u => u == t || X u) tr.reverse := by
        simp [dropThrown]
      rw [hd, mask_hidden (Y := fun u => u == t || X u) h (.inr rfl) (.inl (by simp)) (by intro i hi; simp [hi])]
      exact ih _ (others (t := t) rfl (by intro i hi; simp [hi]) (fun _ => ⟨_, _, h⟩))

theorem mask_false (ths : List (Status S)) : mask (fun _ => false) ths = ths := by
  apply List.ext_getElem?
  intro i
  simp [mask_get]

/-- The history without the calls that threw is one of the same object, ending in the same state. -/
theorem withoutThrown_exec {O : Obj D S} {n : Nat} {tr : List (Ev S)} {a : St D S} (h : Exec (step O) (init O n) tr a) :
    Exec (step O) (init O n) (withoutThrown tr) a := by
  have := drop_exec h (fun _ => false) (by simp)
  rw [mask_false] at this
  exact this

theorem withoutThrown_isThrown (tr : List (Ev S)) : ∀ ev ∈ withoutThrown tr, ev.isThrown = false := by
  intro ev h
  exact dropThrown_isThrown _ _ ev (by simpa [withoutThrown] using h)

theorem withoutThrown_isRet (tr : List (Ev S)) : (withoutThrown tr).filter Ev.isRet = tr.filter Ev.isRet := by
  rw [withoutThrown, List.filter_reverse, dropThrown_isRet, List.filter_reverse, List.reverse_reverse]

end Verif.Atomic
