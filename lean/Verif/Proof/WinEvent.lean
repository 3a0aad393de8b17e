import Verif.Spec.WinEvent
import Verif.Base.Count

/-! # Invariants of the Windows events -/

namespace Verif.WinEvent

/-- What the call of a thread has done so far. -/
inductive At : PC → Option (Op × List Eff) → Prop
  | idle : At .idle none
  | set : At .set (some (.set, []))
  | reset : At .reset (some (.reset, []))
  | wait : At .wait (some (.wait, []))
  | tryWait : At .tryWait (some (.tryWait, []))
  | rel (l : Nat) (ms : Int) (k : Nat) (h : k = 0 ∨ k * longest < ms) (hl : (l : Int) = if ms ≤ 0 then 0 else ms - k * longest) : At (.rel l false) (some (.timedRel ms, List.replicate k .unset))
  | relClock (l k) : At (.rel l true) (some (.timedClock, List.replicate k .unset))
  | timer : At .timer (some (.timedAbs, []))
  | abs : At .abs (some (.timedAbs, []))
  | clock : At .clock (some (.timedClock, []))
  | clockAgain (k) : At .clockAgain (some (.timedClock, List.replicate (k + 1) .unset))

structure Inv (manual : Bool) (tr : List Ev) (s : St) : Prop where
  flag : flagOf manual tr = some s.flag
  at_ : ∀ (t : Nat) pc, s.ths[t]? = some pc → At pc (callOf tr t)
  rets : ∀ pre t r post, tr = pre ++ Ev.ret t r :: post → ∃ op es, callOf pre t = some (op, es) ∧ Fits op es r

/-- The thread of an event. -/
def Ev.thread : Ev → Nat
  | .called t _ | .didSet t | .didReset t | .took t | .sawUnset t | .ret t _ => t

theorem callUpd_other {e : Ev} {t : Nat} (h : e.thread ≠ t) (c : Option (Op × List Eff)) : callUpd t c e = c := by
  cases e <;> simp_all [callUpd, Ev.thread]

theorem callOf_other {tr es : List Ev} {t : Nat} (h : ∀ e ∈ es, e.thread ≠ t) : callOf (tr ++ es) t = callOf tr t := by
  unfold callOf
  rw [List.foldl_append]
  induction es generalizing tr with
  | nil => rfl
  | cons e es ih =>
    rw [List.foldl_cons, callUpd_other (h e (by simp))]
    exact ih (fun x hx => h x (List.mem_cons_of_mem _ hx))

theorem flagOf_append {manual : Bool} {tr es : List Ev} {f : Bool} (h : flagOf manual tr = some f) :
    flagOf manual (tr ++ es) = es.foldl (fun f e => f.bind (flagUpd manual · e)) (some f) := by
  unfold flagOf at h ⊢
  rw [List.foldl_append, h]

/-- A step that emits events without a return. -/
theorem inv_quiet {manual : Bool} {tr es : List Ev} {s s' : St} {t : Nat} {pc' : PC} (hi : Inv manual tr s)
    (hths : s'.ths = s.ths.set t pc') (ht : ∀ e ∈ es, e.thread = t) (hr : ∀ e ∈ es, ∀ u r, e ≠ .ret u r)
    (hf : es.foldl (fun f e => f.bind (flagUpd manual · e)) (some s.flag) = some s'.flag)
    (ha : At pc' (es.foldl (callUpd t) (callOf tr t))) : Inv manual (tr ++ es) s' where
  flag := by rw [flagOf_append hi.flag]; exact hf
  at_ u pc hu := by
    rw [hths] at hu
    rcases get_set_cases hu with ⟨rfl, rfl⟩ | ⟨hne, hu⟩
    · unfold callOf at ha ⊢; rw [List.foldl_append]; exact ha
    · rw [callOf_other (fun e he => by rw [ht e he]; exact hne)]; exact hi.at_ u pc hu
  rets pre u r post h := by
    rcases List.append_eq_append_iff.mp h with ⟨a, rfl, h2⟩ | ⟨c, rfl, h2⟩
    · exact absurd rfl (hr (.ret u r) (by rw [h2]; simp) u r)
    · cases c with
      | nil => exact absurd rfl (hr (.ret u r) (by rw [← List.nil_append es, ← h2]; simp) u r)
      | cons x c => cases h2; exact hi.rets pre u r c rfl

/-- A step that returns. -/
theorem inv_ret {manual : Bool} {tr es : List Ev} {s s' : St} {t : Nat} {r : Res} (hi : Inv manual tr s)
    (hths : s'.ths = s.ths.set t .idle) (ht : ∀ e ∈ es, e.thread = t) (hr : ∀ e ∈ es, ∀ u r, e ≠ .ret u r)
    (hf : es.foldl (fun f e => f.bind (flagUpd manual · e)) (some s.flag) = some s'.flag)
    (ha : ∃ op l, es.foldl (callUpd t) (callOf tr t) = some (op, l) ∧ Fits op l r) : Inv manual (tr ++ (es ++ [.ret t r])) s' where
  flag := by rw [flagOf_append hi.flag, List.foldl_append, hf]; rfl
  at_ u pc hu := by
    rw [hths] at hu
    rcases get_set_cases hu with ⟨rfl, rfl⟩ | ⟨hne, hu⟩
    · unfold callOf
      rw [← List.append_assoc, List.foldl_append]
      simp only [List.foldl_cons, List.foldl_nil, callUpd, if_true]
      exact .idle
    · rw [callOf_other (fun e he => ?_)]
      · exact hi.at_ u pc hu
      · rcases List.mem_append.mp he with he | he
        · rw [ht e he]; exact hne
        · rw [List.mem_singleton.mp he]; exact hne
  rets pre u r' post h := by
    have key : ∀ pre u r' post, tr ++ es = pre ++ Ev.ret u r' :: post →
        ∃ op l, callOf pre u = some (op, l) ∧ Fits op l r' := by
      intro pre u r' post h
      rcases List.append_eq_append_iff.mp h with ⟨a, rfl, h2⟩ | ⟨c, rfl, h2⟩
      · exact absurd rfl (hr (.ret u r') (by rw [h2]; simp) u r')
      · cases c with
        | nil => exact absurd rfl (hr (.ret u r') (by rw [← List.nil_append es, ← h2]; simp) u r')
        | cons x c => cases h2; exact hi.rets pre u r' c rfl
    rw [← List.append_assoc] at h
    rcases List.append_eq_append_iff.mp h with ⟨a, rfl, h2⟩ | ⟨c, h1, h2⟩
    · cases a with
      | nil =>
        cases h2
        obtain ⟨op, l, h1, h2⟩ := ha
        refine ⟨op, l, ?_, h2⟩
        unfold callOf at h1 ⊢
        rw [List.append_nil, List.foldl_append]; exact h1
      | cons x a => simp at h2
    · cases c with
      | nil =>
        cases h2
        obtain ⟨op, l, h3, h4⟩ := ha
        refine ⟨op, l, ?_, h4⟩
        rw [List.append_nil] at h1
        unfold callOf at h3 ⊢
        rw [← h1, List.foldl_append]; exact h3
      | cons x c => cases h2; exact key pre u r' c h1

theorem inv_init (manual : Bool) (n : Nat) : Inv manual [] (init n) where
  flag := rfl
  at_ t pc h := by rw [get_replicate h]; exact .idle
  rets pre t r post h := by simp at h

theorem replicate_snoc (k : Nat) : List.replicate k Eff.unset ++ [.unset] = List.replicate (k + 1) .unset :=
  List.replicate_succ'.symm

theorem lessWait_eq (left : Nat) : lessWait left = left - 4294967294 := by
  unfold lessWait maxWait
  split <;> omega

theorem less_more {left k : Nat} {ms : Int} (hl : (left : Int) = if ms ≤ 0 then 0 else ms - k * longest) (h : lessWait left > 0) :
    (k + 1 = 0 ∨ ((k + 1 : Nat) : Int) * longest < ms) ∧
    (lessWait left : Int) = if ms ≤ 0 then 0 else ms - ((k + 1 : Nat) : Int) * longest := by
  rw [lessWait_eq] at *
  unfold longest at *
  split at hl <;> omega

theorem less_end {left k : Nat} {ms : Int} (hl : (left : Int) = if ms ≤ 0 then 0 else ms - k * longest) (h : ¬ lessWait left > 0) :
    ms ≤ (k + 1) * longest := by
  rw [lessWait_eq] at *
  unfold longest at *
  split at hl <;> omega

theorem inv_step {manual : Bool} {tr es : List Ev} {s s' : St} {l : Nat × Act} (hi : Inv manual tr s)
    (hs : step manual s l = some (s', es)) : Inv manual (tr ++ es) s' := by
  obtain ⟨t, a⟩ := l
  unfold step at hs
  simp only at hs
  split at hs
  · cases hs
  next pc hpc =>
  have hat := hi.at_ t pc hpc
  generalize hc : callOf tr t = c at hat
  split at hs
  all_goals (repeat' split at hs)
  all_goals first
    | contradiction
    | skip
  all_goals
    simp only [Option.some.injEq, Prod.mk.injEq] at hs
    obtain ⟨rfl, rfl⟩ := hs
  all_goals first
    | (refine inv_ret hi rfl (by simp [Ev.thread]) (by simp) ?_ ?_)
    | (refine inv_quiet hi rfl (by simp [Ev.thread]) (by simp) ?_ ?_)
  all_goals first
    | (simp_all [flagUpd]; done)
    | skip
  all_goals
    rw [hc]
    cases hat
  all_goals first
    | contradiction
    | skip
  all_goals
    simp only [List.foldl_cons, List.foldl_nil, callUpd, if_true, Option.map_some, List.nil_append, replicate_snoc]
  all_goals first
    | exact .rel _ _ 0 (.inl rfl) (by unfold clamp; split <;> omega)
    | exact .relClock _ 0
    | (constructor; done)
    | exact ⟨_, _, rfl, .threw _ 0⟩
    | exact ⟨_, _, rfl, .threw _ _⟩
    | exact .rel _ _ _ (less_more ‹_› ‹_›).1 (less_more ‹_› ‹_›).2
    | exact ⟨_, _, rfl, .relNo _ _ (less_end ‹_› ‹_›) ‹_›⟩
    | exact ⟨_, _, rfl, .relYes _ _ ‹_›⟩
    | exact ⟨_, _, rfl, .clockNo _⟩
    | exact ⟨_, _, rfl, by constructor⟩

theorem inv_exec {manual : Bool} {n : Nat} {tr : List Ev} {s : St} (h : Exec (step manual) (init n) tr s) : Inv manual tr s :=
  h.invariant (Inv manual) (inv_init manual n) (fun _ _ _ _ _ hi hs => inv_step hi hs)

end Verif.WinEvent
