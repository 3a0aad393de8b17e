import Verif.Proof.Alone
import Verif.Spec.AloneFair
import Verif.Proof.Rest

/-!
# Lemmas for C111: the measures
-/

namespace Verif.AutoFutex

open Verif.Spec.Alone

namespace Al

def posting : PC → Bool
  | .postLoad | .postLoop _ | .postSignal => true
  | _ => false

def trying : PC → Bool
  | .tryLoad .tryOnly | .tryLoop .tryOnly _ => true
  | _ => false

def waiting : PC → Bool
  | .idle | .postLoad | .postLoop _ | .postSignal | .asleep _ => false
  | _ => true

def mPost (w : UInt32) : PC → Nat
  | .postSignal => 0
  | .postLoop old => if old = w then 1 else 2
  | _ => 2

def mTry (w : UInt32) : PC → Nat
  | .tryLoop _ old => if old = w then 0 else 1
  | _ => 1

def mWait (w : UInt32) : PC → Nat
  | .toLoop old => if old = w then 0 else 1
  | .toLoad => 1
  | .sleepCall _ e => if e = w then 2 else 4
  | .reload _ => 3
  | .cas _ old => if old = w then 0 else 6
  | .waitTop _ old => if posts old = 0 then 5 else if old = w then 1 else 7
  | .add _ => 8
  | .tryLoop _ old => if old = w then 9 else 10
  | .tryLoad _ => 10
  | _ => 0

/-- The program counter of a thread. -/
def pcOf (s : St) (t : Nat) : PC := (s.ths[t]?.map Th.pc).getD .idle

theorem post {s : St} {t : Nat} {th : Th} (ht : s.ths[t]? = some th) (hpc : posting th.pc = true) :
    Within step Fair t (fun _ es => .postDone t ∈ es) 3 s := by
  refine within_of_measure (fun s => ∃ th, s.ths[t]? = some th ∧ posting th.pc = true) (fun s => mPost s.word.val (pcOf s t)) ?_ ?_ 3 s
    ⟨th, ht, hpc⟩ ?_
  · rintro s ⟨⟨pc, view⟩, ht, hpc⟩
    cases pc <;> simp only [posting, Bool.false_eq_true] at hpc
    · exact ⟨.load s.word.val, _, rfl, by simp only [step, ht]; rfl⟩
    · refine ⟨.go, ?_⟩
      simp only [step, ht]
      repeat' split
      all_goals exact ⟨_, trivial, rfl⟩
    · by_cases h : s.ths.all (fun x => !x.isAsleep) = true
      · exact ⟨.wakeNone, _, trivial, by simp only [step, ht, h, if_true]; rfl⟩
      · simp only [List.all_eq_true, Bool.not_eq_true', Classical.not_forall, Bool.not_eq_false] at h
        obtain ⟨⟨pc', v'⟩, hx, ha⟩ := h
        obtain ⟨j, hj⟩ := List.mem_iff_getElem?.mp hx
        cases pc' <;> simp only [Th.isAsleep, PC.isAsleep, Bool.false_eq_true] at ha
        exact ⟨.wake j, _, trivial, by simp only [step, ht, hj]; rfl⟩
  · rintro s a s' es ⟨⟨pc, view⟩, ht, hpc⟩ hf hs
    cases pc <;> simp only [posting, Bool.false_eq_true] at hpc
    all_goals cases a <;> simp only [step, ht, reduceCtorEq, Fair] at hs hf
    all_goals repeat' (split at hs)
    all_goals first
      | contradiction
      | (simp only [reduceCtorEq] at hs; done)
      | (obtain ⟨rfl, rfl⟩ := Prod.mk.inj (Option.some.inj hs); first
          | (left; simp; done)
          | (refine .inr ⟨⟨_, get_set ht, rfl⟩, ?_⟩; simp only [pcOf, get_set ht, ht, mPost, Option.map_some, Option.getD_some]; (repeat' split) <;> first | omega | (simp_all; done) | (exact absurd (Eq.symm (by assumption)) (by assumption))))
  · obtain ⟨pc, view⟩ := th
    simp only [pcOf, ht, Option.map_some, Option.getD_some]
    cases pc <;> simp only [mPost] <;> (try split) <;> omega

theorem tryWait {s : St} {t : Nat} {th : Th} (ht : s.ths[t]? = some th) (hpc : trying th.pc = true) :
    Within step Fair t (fun _ es => ∃ b, .tryDone t b ∈ es) 2 s := by
  refine within_of_measure (fun s => ∃ th, s.ths[t]? = some th ∧ trying th.pc = true) (fun s => mTry s.word.val (pcOf s t)) ?_ ?_ 2 s
    ⟨th, ht, hpc⟩ ?_
  · rintro s ⟨⟨pc, view⟩, ht, hpc⟩
    cases pc with
    | tryLoad k => exact ⟨.load s.word.val, _, rfl, by simp only [step, ht]; rfl⟩
    | tryLoop k old =>
      refine ⟨.go, ?_⟩
      simp only [step, ht]
      repeat' split
      all_goals exact ⟨_, trivial, rfl⟩
    | _ => simp [trying] at hpc
  · rintro s a s' es ⟨⟨pc, view⟩, ht, hpc⟩ hf hs
    cases pc with
    | tryLoad k =>
      cases k <;> simp only [trying, Bool.false_eq_true] at hpc
      cases a <;> simp only [step, ht, reduceCtorEq, Fair] at hs hf
      cases hs
      subst hf
      exact .inr ⟨⟨_, get_set ht, rfl⟩, by simp [pcOf, get_set ht, ht, mTry]⟩
    | tryLoop k old =>
      cases k <;> simp only [trying, Bool.false_eq_true] at hpc
      cases a <;> simp only [step, ht, reduceCtorEq, Fair] at hs hf
      all_goals repeat' (split at hs)
      all_goals first
        | contradiction
        | (cases hs; first
            | (left; exact ⟨_, List.mem_singleton.mpr rfl⟩)
            | (refine .inr ⟨⟨_, get_set ht, rfl⟩, ?_⟩; simp only [pcOf, get_set ht, ht, mTry, Option.map_some, Option.getD_some]; (repeat' split) <;> first | omega | (simp_all; done) | (exact absurd (Eq.symm (by assumption)) (by assumption))))
    | _ => simp [trying] at hpc
  · obtain ⟨pc, view⟩ := th
    simp only [pcOf, ht, Option.map_some, Option.getD_some]
    cases pc <;> simp only [mTry] <;> (try split) <;> omega

theorem ended_ret (t : Nat) (k : Kind) (b : Bool) : Ended t [retEv t k b] :=
  ⟨_, List.mem_singleton.mpr rfl, by cases k <;> simp [retEv]⟩

theorem wait {s : St} {t : Nat} {th : Th} (ht : s.ths[t]? = some th) (hpc : waiting th.pc = true) :
    Within step Fair t (fun s' es => Ended t es ∨ Sleeps t s') 11 s := by
  refine within_of_measure (fun s => ∃ th, s.ths[t]? = some th ∧ waiting th.pc = true) (fun s => mWait s.word.val (pcOf s t)) ?_ ?_ 11 s
    ⟨th, ht, hpc⟩ ?_
  · rintro s ⟨⟨pc, view⟩, ht, hpc⟩
    cases pc <;> simp only [waiting, Bool.false_eq_true] at hpc
    all_goals first
      | (refine ⟨.go, ?_⟩
         simp only [step, ht]
         repeat' split
         all_goals exact ⟨_, trivial, rfl⟩)
      | (refine ⟨.load s.word.val, ?_⟩
         simp only [step, ht]
         repeat' split
         all_goals exact ⟨_, rfl, rfl⟩)
  · rintro s a s' es ⟨⟨pc, view⟩, ht, hpc⟩ hf hs
    cases pc <;> simp only [waiting, Bool.false_eq_true] at hpc
    all_goals cases a <;> simp only [step, ht, reduceCtorEq, Fair] at hs hf
    all_goals repeat' (split at hs)
    all_goals first
      | contradiction
      | (cases hs; first
          | (left; left; exact ended_ret _ _ _)
          | (left; left; exact ⟨_, List.mem_singleton.mpr rfl, by simp⟩)
          | (left; right; exact ⟨_, get_set ht, rfl⟩)
          | (refine .inr ⟨⟨_, get_set ht, rfl⟩, ?_⟩; simp only [pcOf, get_set ht, ht, mWait, Option.map_some, Option.getD_some]; (repeat' split) <;> first | omega | (simp_all; done)))
  · obtain ⟨pc, view⟩ := th
    simp only [pcOf, ht, Option.map_some, Option.getD_some]
    cases pc <;> simp only [mWait] <;> (repeat' split) <;> omega

end Al

end Verif.AutoFutex

namespace Verif.ManualFutex

open Verif.Spec.Alone

namespace Al

def setting : PC → Bool
  | .setOr | .setWake => true
  | _ => false

def waiting : PC → Bool
  | .idle | .setOr | .setWake | .resetAnd | .asleep _ _ => false
  | _ => true

def mSet : PC → Nat
  | .setOr => 1
  | _ => 0

def mWait (w : UInt32) : PC → Nat
  | .timedOut | .sub _ => 0
  | .sleepCall _ e _ => if e = w then 1 else 3
  | .reload _ _ => 2
  | .add _ => 2
  | .tryLoad _ => 3
  | _ => 0

def pcOf (s : St) (t : Nat) : PC := (s.ths[t]?.map Th.pc).getD .idle

theorem set {s : St} {t : Nat} {th : Th} (ht : s.ths[t]? = some th) (hpc : setting th.pc = true) :
    Within step Fair t (fun _ es => .setDone t ∈ es) 2 s := by
  refine within_of_measure (fun s => ∃ th, s.ths[t]? = some th ∧ setting th.pc = true) (fun s => mSet (pcOf s t)) ?_ ?_ 2 s
    ⟨th, ht, hpc⟩ ?_
  · rintro s ⟨⟨pc, view⟩, ht, hpc⟩
    cases pc <;> simp only [setting, Bool.false_eq_true] at hpc
    all_goals
      refine ⟨.go, ?_⟩
      simp only [step, ht]
      repeat' split
      all_goals exact ⟨_, trivial, rfl⟩
  · rintro s a s' es ⟨⟨pc, view⟩, ht, hpc⟩ hf hs
    cases pc <;> simp only [setting, Bool.false_eq_true] at hpc
    all_goals cases a <;> simp only [step, ht, reduceCtorEq, Fair] at hs hf
    all_goals repeat' (split at hs)
    all_goals
      obtain ⟨rfl, rfl⟩ := Prod.mk.inj (Option.some.inj hs)
      first
        | (left; simp; done)
        | (refine .inr ⟨⟨_, get_set ht, rfl⟩, ?_⟩; simp only [pcOf, get_set ht, ht, mSet, Option.map_some, Option.getD_some]; omega)
  · obtain ⟨pc, view⟩ := th
    simp only [pcOf, ht, Option.map_some, Option.getD_some]
    cases pc <;> simp only [mSet] <;> omega

theorem reset {s : St} {t : Nat} {th : Th} (ht : s.ths[t]? = some th) (hpc : th.pc = .resetAnd) :
    Within step Fair t (fun _ es => .resetDone t ∈ es) 1 s := by
  obtain ⟨pc, view⟩ := th
  subst hpc
  refine ⟨⟨.go, _, trivial, by simp only [step, ht]; rfl⟩, ?_⟩
  intro a s' es hf hs
  cases a <;> simp only [step, ht, reduceCtorEq] at hs
  obtain ⟨rfl, rfl⟩ := Prod.mk.inj (Option.some.inj hs)
  exact .inl (by simp)

theorem tryWait {s : St} {t : Nat} {th : Th} (ht : s.ths[t]? = some th) (hpc : th.pc = .tryLoad .tryOnly) :
    Within step Fair t (fun _ es => ∃ b, .tryDone t b ∈ es) 1 s := by
  obtain ⟨pc, view⟩ := th
  subst hpc
  refine ⟨⟨.go, ?_⟩, ?_⟩
  · simp only [step, ht, if_true]
    split
    all_goals exact ⟨_, trivial, rfl⟩
  intro a s' es hf hs
  cases a <;> simp only [step, ht, reduceCtorEq, if_true] at hs
  split at hs <;> obtain ⟨rfl, rfl⟩ := Prod.mk.inj (Option.some.inj hs)
  · exact .inl ⟨true, by simp [retEv]⟩
  · exact .inl ⟨false, by simp⟩

theorem ended_ret (t : Nat) (k : Kind) (b : Bool) : Ended t [retEv t k b] :=
  ⟨_, List.mem_singleton.mpr rfl, by cases k <;> simp [retEv]⟩

theorem wait {s : St} {t : Nat} {th : Th} (hF : Fresh s) (ht : s.ths[t]? = some th) (hpc : waiting th.pc = true) :
    Within step Fair t (fun s' es => Ended t es ∨ Sleeps t s') 4 s := by
  refine within_of_measure (fun s => Fresh s ∧ ∃ th, s.ths[t]? = some th ∧ waiting th.pc = true) (fun s => mWait s.word.val (pcOf s t)) ?_ ?_ 4 s
    ⟨hF, th, ht, hpc⟩ ?_
  · rintro s ⟨hF, ⟨pc, view⟩, ht, hpc⟩
    have hf := hF _ _ ht
    cases pc <;> simp only [waiting, Bool.false_eq_true] at hpc
    case reload k b =>
      refine ⟨.load s.word.val, ?_⟩
      simp only [step, ht]
      split
      next h => rw [if_pos (hf.2 h)]; exact ⟨_, rfl, rfl⟩
      next => exact ⟨_, rfl, rfl⟩
    all_goals
      refine ⟨.go, ?_⟩
      simp only [step, ht]
      repeat' split
      all_goals exact ⟨_, trivial, rfl⟩
  · rintro s a s' es ⟨hF, ⟨pc, view⟩, ht, hpc⟩ hf hs
    have hF' := fresh_step hF hs
    cases pc <;> simp only [waiting, Bool.false_eq_true] at hpc
    all_goals cases a <;> simp only [step, ht, reduceCtorEq, Fair] at hs hf
    all_goals repeat' (split at hs)
    all_goals first
      | contradiction
      | (simp only [reduceCtorEq] at hs; done)
      | (obtain ⟨rfl, rfl⟩ := Prod.mk.inj (Option.some.inj hs); first
          | (left; left; exact ended_ret _ _ _)
          | (left; left; exact ⟨_, List.mem_singleton.mpr rfl, by simp⟩)
          | (left; right; exact ⟨_, _, _, get_set ht, rfl⟩)
          | (refine .inr ⟨⟨hF', _, get_set ht, rfl⟩, ?_⟩; simp only [pcOf, get_set ht, ht, mWait, Option.map_some, Option.getD_some]; (repeat' split) <;> first | omega | (simp_all; done))
          | (refine .inr ⟨⟨hF', _, get_set ht, rfl⟩, ?_⟩; simp only [pcOf, get_set ht, ht, mWait, Option.map_some, Option.getD_some, rmw_val, if_true]; omega))
  · obtain ⟨pc, view⟩ := th
    simp only [pcOf, ht, Option.map_some, Option.getD_some]
    cases pc <;> simp only [mWait] <;> (repeat' split) <;> omega

end Al

end Verif.ManualFutex

namespace Verif.WinMutex

open Verif.Spec.Alone

namespace Al

def leaving : PC → Bool
  | .unlAdd | .unlBts | .unlSet => true
  | _ => false

def entering : PC → Bool
  | .tryBts _ | .load _ | .mark _ _ | .clr _ _ | .sub _ _ => true
  | _ => false

def mAcq (w : UInt32) : PC → Nat
  | .load _ => 1
  | .mark _ old | .clr _ old => if old = w then 0 else 1
  | _ => 0

/-- Inside the functions, not after a wait that failed. -/
def acquiring : PC → Bool
  | .tryBts _ | .load _ | .mark _ _ | .clr _ _ => true
  | _ => false

def mUnl : PC → Nat
  | .unlAdd => 2
  | .unlBts => 1
  | _ => 0

def mEnter (w : UInt32) : PC → Nat
  | .tryBts _ => 2
  | .load _ => 1
  | .mark _ old | .clr _ old => if old = w then 0 else 1
  | .sub _ _ => 2
  | _ => 0

def pcOf (s : St) (t : Nat) : PC := (s.ths[t]?.map Th.pc).getD .idle

theorem unlock {s : St} {t : Nat} {th : Th} (ht : s.ths[t]? = some th) (hpc : leaving th.pc = true) :
    Within step Fair t (fun s' _ => Outside t s') 3 s := by
  refine within_of_measure (fun s => ∃ th, s.ths[t]? = some th ∧ leaving th.pc = true) (fun s => mUnl (pcOf s t)) ?_ ?_ 3 s
    ⟨th, ht, hpc⟩ ?_
  · rintro s ⟨⟨pc, view⟩, ht, hpc⟩
    cases pc <;> simp only [leaving, Bool.false_eq_true] at hpc
    all_goals
      refine ⟨.go, ?_⟩
      simp only [step, ht]
      exact ⟨_, trivial, rfl⟩
  · rintro s a s' es ⟨⟨pc, view⟩, ht, hpc⟩ hf hs
    cases pc <;> simp only [leaving, Bool.false_eq_true] at hpc
    all_goals cases a <;> simp only [step, ht, reduceCtorEq, Fair] at hs hf
    all_goals obtain ⟨rfl, rfl⟩ := Prod.mk.inj (Option.some.inj hs)
    · by_cases h : (!isFlagged s.word.val && decide (s.word.val > lockFlag)) = true
      · refine .inr ⟨⟨_, get_set ht, by simp only [h, if_true, leaving]⟩, ?_⟩
        simp only [pcOf, get_set ht, ht, Option.map_some, Option.getD_some, h, if_true, mUnl]; omega
      · exact .inl ⟨_, get_set ht, by simp only [h]; rfl⟩
    · by_cases h : isFlagged s.word.val = true
      · exact .inl ⟨_, get_set ht, by simp only [h, if_true]⟩
      · refine .inr ⟨⟨_, get_set ht, by simp only [h]; rfl⟩, ?_⟩
        simp only [pcOf, get_set ht, ht, Option.map_some, Option.getD_some, h, mUnl]; simp
    · exact .inl ⟨_, get_set ht, rfl⟩
  · obtain ⟨pc, view⟩ := th
    simp only [pcOf, ht, Option.map_some, Option.getD_some]
    cases pc <;> simp only [mUnl] <;> omega

theorem tryLock {s : St} {t : Nat} {th : Th} (ht : s.ths[t]? = some th) (hpc : th.pc = .tryBts .tryOnly) :
    Within step Fair t (fun _ es => Ended t es) 1 s := by
  obtain ⟨pc, view⟩ := th
  subst hpc
  refine ⟨⟨.go, ?_⟩, ?_⟩
  · simp only [step, ht]
    split
    all_goals exact ⟨_, trivial, rfl⟩
  intro a s' es hf hs
  cases a <;> simp only [step, ht, reduceCtorEq, if_true] at hs
  split at hs <;> obtain ⟨rfl, rfl⟩ := Prod.mk.inj (Option.some.inj hs)
  · exact .inl ⟨_, List.mem_singleton.mpr rfl, by simp⟩
  · exact .inl ⟨_, List.mem_singleton.mpr rfl, by simp⟩

theorem enter {s : St} {t : Nat} {th : Th} (ht : s.ths[t]? = some th) (hpc : entering th.pc = true) :
    Within step Fair t (fun s' es => Ended t es ∨ Waits t s') 3 s := by
  refine within_of_measure (fun s => ∃ th, s.ths[t]? = some th ∧ entering th.pc = true) (fun s => mEnter s.word.val (pcOf s t)) ?_ ?_ 3 s
    ⟨th, ht, hpc⟩ ?_
  · rintro s ⟨⟨pc, view⟩, ht, hpc⟩
    cases pc <;> simp only [entering, Bool.false_eq_true] at hpc
    all_goals
      refine ⟨.go, ?_⟩
      simp only [step, ht]
      repeat' split
      all_goals exact ⟨_, trivial, rfl⟩
  · rintro s a s' es ⟨⟨pc, view⟩, ht, hpc⟩ hf hs
    cases pc <;> simp only [entering, Bool.false_eq_true] at hpc
    all_goals cases a <;> simp only [step, ht, reduceCtorEq, Fair] at hs hf
    all_goals repeat' (split at hs)
    all_goals first
      | contradiction
      | (simp only [reduceCtorEq] at hs; done)
      | (obtain ⟨rfl, rfl⟩ := Prod.mk.inj (Option.some.inj hs); first
          | (left; left; exact ⟨_, List.mem_singleton.mpr rfl, by simp⟩)
          | (left; right; exact ⟨_, _, _, get_set ht, rfl⟩)
          | (refine .inr ⟨⟨_, get_set ht, rfl⟩, ?_⟩; simp only [pcOf, get_set ht, ht, mEnter, Option.map_some, Option.getD_some]; (repeat' split) <;> first | omega | (simp_all; done)))
  · obtain ⟨pc, view⟩ := th
    simp only [pcOf, ht, Option.map_some, Option.getD_some]
    cases pc <;> simp only [mEnter] <;> (repeat' split) <;> omega

theorem acquire {s : St} {t : Nat} {th : Th} (hw : isLocked s.word.val = false) (ht : s.ths[t]? = some th) (hpc : acquiring th.pc = true) :
    Within step Fair t (fun _ es => Ended t es) 2 s := by
  refine within_of_measure (fun s => isLocked s.word.val = false ∧ ∃ th, s.ths[t]? = some th ∧ acquiring th.pc = true)
    (fun s => mAcq s.word.val (pcOf s t)) ?_ ?_ 2 s ⟨hw, th, ht, hpc⟩ ?_
  · rintro s ⟨hw, ⟨pc, view⟩, ht, hpc⟩
    cases pc <;> simp only [acquiring, Bool.false_eq_true] at hpc
    all_goals
      refine ⟨.go, ?_⟩
      simp only [step, ht]
      repeat' split
      all_goals exact ⟨_, trivial, rfl⟩
  · rintro s a s' es ⟨hw, ⟨pc, view⟩, ht, hpc⟩ hf hs
    cases pc <;> simp only [acquiring, Bool.false_eq_true] at hpc
    all_goals cases a <;> simp only [step, ht, reduceCtorEq, Fair] at hs hf
    all_goals repeat' (split at hs)
    all_goals first
      | contradiction
      | (simp only [reduceCtorEq] at hs; done)
      | (simp_all; done)
      | (obtain ⟨rfl, rfl⟩ := Prod.mk.inj (Option.some.inj hs); first
          | (left; exact ⟨_, List.mem_singleton.mpr rfl, by simp⟩)
          | (refine .inr ⟨⟨hw, _, get_set ht, rfl⟩, ?_⟩; simp only [pcOf, get_set ht, ht, mAcq, Option.map_some, Option.getD_some]; (repeat' split) <;> first | omega | (simp_all; done)))
  · obtain ⟨pc, view⟩ := th
    simp only [pcOf, ht, Option.map_some, Option.getD_some]
    cases pc <;> simp only [mAcq] <;> (repeat' split) <;> omega

end Al

end Verif.WinMutex

namespace Verif.SharedSpin

open Verif.Spec.Alone

namespace Al

def pcOf (s : St) (t : Nat) : PC := (s.ths[t]?.map Th.pc).getD .idle

def mLock : PC → Nat
  | .lockSpin => 1
  | _ => 0

def mShared (w : UInt32) : PC → Nat
  | .sharedSpin => 2
  | .sharedLoad => 1
  | .sharedCas cur => if cur = w then 0 else 3
  | _ => 0

theorem tryLock {s : St} {t : Nat} {th : Th} (ht : s.ths[t]? = some th) (hpc : th.pc = .tryCas) :
    Within step Fair t (fun _ es => ∃ b, es = [.tried t b]) 1 s := by
  obtain ⟨pc, view⟩ := th
  subst hpc
  refine ⟨⟨.go, ?_⟩, ?_⟩
  · simp only [step, ht]
    split
    all_goals exact ⟨_, trivial, rfl⟩
  intro a s' es hf hs
  cases a <;> simp only [step, ht, reduceCtorEq] at hs
  split at hs <;> obtain ⟨rfl, rfl⟩ := Prod.mk.inj (Option.some.inj hs) <;> exact .inl ⟨_, rfl⟩

theorem unlock {s : St} {t : Nat} {th : Th} (ht : s.ths[t]? = some th) (hpc : th.pc = .unlocking) :
    Within step Fair t (fun _ es => es = [.unlocked t]) 1 s := by
  obtain ⟨pc, view⟩ := th
  subst hpc
  refine ⟨⟨.go, _, trivial, by simp only [step, ht]; rfl⟩, ?_⟩
  intro a s' es hf hs
  cases a <;> simp only [step, ht, reduceCtorEq] at hs
  obtain ⟨rfl, rfl⟩ := Prod.mk.inj (Option.some.inj hs)
  exact .inl rfl

theorem unlockShared {s : St} {t : Nat} {th : Th} (ht : s.ths[t]? = some th) (hpc : th.pc = .sharedUnlocking) :
    Within step Fair t (fun _ es => es = [.unlockedShared t]) 1 s := by
  obtain ⟨pc, view⟩ := th
  subst hpc
  refine ⟨⟨.go, _, trivial, by simp only [step, ht]; rfl⟩, ?_⟩
  intro a s' es hf hs
  cases a <;> simp only [step, ht, reduceCtorEq] at hs
  obtain ⟨rfl, rfl⟩ := Prod.mk.inj (Option.some.inj hs)
  exact .inl rfl

theorem trySharedCas {s : St} {t : Nat} {th : Th} {cur : UInt32} (ht : s.ths[t]? = some th) (hpc : th.pc = .trySharedCas cur) :
    Within step Fair t (fun _ es => ∃ b, es = [.triedShared t b]) 1 s := by
  obtain ⟨pc, view⟩ := th
  subst hpc
  refine ⟨⟨.go, ?_⟩, ?_⟩
  · simp only [step, ht]
    split
    all_goals exact ⟨_, trivial, rfl⟩
  intro a s' es hf hs
  cases a <;> simp only [step, ht, reduceCtorEq] at hs
  split at hs <;> obtain ⟨rfl, rfl⟩ := Prod.mk.inj (Option.some.inj hs) <;> exact .inl ⟨_, rfl⟩

theorem tryShared {s : St} {t : Nat} {th : Th} (ht : s.ths[t]? = some th) (hpc : th.pc = .trySharedLoad) :
    Within step Fair t (fun _ es => ∃ b, es = [.triedShared t b]) 2 s := by
  obtain ⟨pc, view⟩ := th
  subst hpc
  refine ⟨⟨.load s.word.val, _, rfl, by simp only [step, ht]; rfl⟩, ?_⟩
  intro a s' es hf hs
  cases a <;> simp only [step, ht, reduceCtorEq] at hs
  obtain ⟨rfl, rfl⟩ := Prod.mk.inj (Option.some.inj hs)
  exact .inr (trySharedCas (get_set ht) rfl)

theorem lock {s : St} {t : Nat} {th : Th} (hw : s.word.val = unlockedState) (ht : s.ths[t]? = some th)
    (hpc : th.pc = .lockSpin ∨ th.pc = .lockCas) : Within step Fair t (fun _ es => es = [.locked t]) 2 s := by
  refine within_of_measure (fun s => s.word.val = unlockedState ∧ ∃ th, s.ths[t]? = some th ∧ (th.pc = .lockSpin ∨ th.pc = .lockCas))
    (fun s => mLock (pcOf s t)) ?_ ?_ 2 s ⟨hw, th, ht, hpc⟩ ?_
  · rintro s ⟨hw, ⟨pc, view⟩, ht, rfl | rfl⟩
    · exact ⟨.load s.word.val, _, rfl, by simp only [step, ht]; rfl⟩
    · exact ⟨.go, _, trivial, by simp only [step, ht, hw, if_true]; rfl⟩
  · rintro s a s' es ⟨hw, ⟨pc, view⟩, ht, rfl | rfl⟩ hf hs
    · cases a <;> simp only [step, ht, reduceCtorEq, Fair] at hs hf
      rw [hf, hw, if_pos rfl] at hs
      obtain ⟨rfl, rfl⟩ := Prod.mk.inj (Option.some.inj hs)
      exact .inr ⟨⟨hw, _, get_set ht, .inr rfl⟩, by simp [pcOf, get_set ht, ht, mLock]⟩
    · cases a <;> simp only [step, ht, reduceCtorEq, Fair] at hs hf
      rw [if_pos hw] at hs
      obtain ⟨rfl, rfl⟩ := Prod.mk.inj (Option.some.inj hs)
      exact .inl rfl
  · obtain ⟨pc, view⟩ := th
    simp only [pcOf, ht, Option.map_some, Option.getD_some]
    cases pc <;> simp only [mLock] <;> omega

def sharing : PC → Bool
  | .sharedSpin | .sharedLoad | .sharedCas _ => true
  | _ => false

theorem lockShared {s : St} {t : Nat} {th : Th} (hm : masked s.word.val = s.word.val) (hw : s.word.val ≠ lockedState)
    (ht : s.ths[t]? = some th) (hpc : sharing th.pc = true) : Within step Fair t (fun _ es => es = [.lockedShared t]) 4 s := by
  refine within_of_measure
    (fun s => masked s.word.val = s.word.val ∧ s.word.val ≠ lockedState ∧ ∃ th, s.ths[t]? = some th ∧ sharing th.pc = true)
    (fun s => mShared s.word.val (pcOf s t)) ?_ ?_ 4 s ⟨hm, hw, th, ht, hpc⟩ ?_
  · rintro s ⟨hm, hw, ⟨pc, view⟩, ht, hpc⟩
    cases pc <;> simp only [sharing, Bool.false_eq_true] at hpc
    · exact ⟨.load s.word.val, _, rfl, by simp only [step, ht]; rfl⟩
    · exact ⟨.load s.word.val, _, rfl, by simp only [step, ht]; rfl⟩
    · refine ⟨.go, ?_⟩
      simp only [step, ht]
      split
      all_goals exact ⟨_, trivial, rfl⟩
  · rintro s a s' es ⟨hm, hw, ⟨pc, view⟩, ht, hpc⟩ hf hs
    cases pc <;> simp only [sharing, Bool.false_eq_true] at hpc
    all_goals cases a <;> simp only [step, ht, reduceCtorEq, Fair] at hs hf
    · rw [hf, if_neg hw] at hs
      obtain ⟨rfl, rfl⟩ := Prod.mk.inj (Option.some.inj hs)
      exact .inr ⟨⟨hm, hw, _, get_set ht, rfl⟩, by simp [pcOf, get_set ht, ht, mShared]⟩
    · rw [hf, hm] at hs
      obtain ⟨rfl, rfl⟩ := Prod.mk.inj (Option.some.inj hs)
      exact .inr ⟨⟨hm, hw, _, get_set ht, rfl⟩, by simp [pcOf, get_set ht, ht, mShared]⟩
    · split at hs <;> obtain ⟨rfl, rfl⟩ := Prod.mk.inj (Option.some.inj hs)
      · exact .inl rfl
      · next h =>
        refine .inr ⟨⟨hm, hw, _, get_set ht, rfl⟩, ?_⟩
        simp only [pcOf, get_set ht, ht, mShared, Option.map_some, Option.getD_some]
        rw [if_neg (fun e => h e.symm)]
        omega
  · obtain ⟨pc, view⟩ := th
    simp only [pcOf, ht, Option.map_some, Option.getD_some]
    cases pc <;> simp only [mShared] <;> (repeat' split) <;> omega

end Al

end Verif.SharedSpin

namespace Verif.AutoSem

open Verif.Spec.Alone
open Verif.Atomic (Kind)

namespace Al

def pcOf (s : St) (t : Nat) : PC := s.ths[t]?.getD .idle

def posting : PC → Bool
  | .pLoad | .pCas _ | .pSem | .leave (.sig _) _ => true
  | _ => false

def trying : PC → Bool
  | .wAdd .tryWait | .wSem .tryWait | .wSub .tryWait | .leave (.acq .tryWait) _ => true
  | _ => false

def mPost (v : Int) : PC → Nat
  | .leave _ _ => 0
  | .pSem => 1
  | .pCas old => if old = v then 2 else 3
  | _ => 3

def mWait : PC → Nat
  | .leave _ _ => 0
  | .wSub _ => 1
  | .wSem _ => 2
  | _ => 3

theorem post {s : St} {t : Nat} {pc : PC} (ht : s.ths[t]? = some pc) (hpc : posting pc = true) :
    Within step Fair t (fun _ es => Ended t es) 4 s := by
  refine within_of_measure (fun s => ∃ pc, s.ths[t]? = some pc ∧ posting pc = true) (fun s => mPost s.state (pcOf s t)) ?_ ?_ 4 s
    ⟨pc, ht, hpc⟩ ?_
  · rintro s ⟨pc, ht, hpc⟩
    cases pc with
    | pLoad | pSem => exact ⟨.go, _, trivial, by simp only [step, ht]; rfl⟩
    | leave op b => exact ⟨.go, _, trivial, by simp only [step, ht]; rfl⟩
    | pCas old =>
      refine ⟨.go, ?_⟩
      simp only [step, ht]
      split
      all_goals exact ⟨_, trivial, rfl⟩
    | _ => simp [posting] at hpc
  · rintro s a s' es ⟨pc, ht, hpc⟩ hf hs
    cases pc with
    | leave op b =>
      cases a <;> simp only [step, ht, reduceCtorEq] at hs
      obtain ⟨rfl, rfl⟩ := Prod.mk.inj (Option.some.inj hs)
      exact .inl ⟨_, List.mem_singleton.mpr rfl, .inl ⟨_, _, rfl⟩⟩
    | pSem =>
      cases a <;> simp only [step, ht, reduceCtorEq] at hs
      obtain ⟨rfl, rfl⟩ := Prod.mk.inj (Option.some.inj hs)
      exact .inr ⟨⟨_, get_set ht, rfl⟩, by simp [pcOf, get_set ht, ht, mPost]⟩
    | pLoad =>
      cases a <;> simp only [step, ht, reduceCtorEq] at hs
      obtain ⟨rfl, rfl⟩ := Prod.mk.inj (Option.some.inj hs)
      refine .inr ⟨⟨_, get_set ht, by unfold seen; split <;> rfl⟩, ?_⟩
      simp only [pcOf, get_set ht, ht, Option.getD_some, seen]
      split <;> simp [mPost]
    | pCas old =>
      cases a <;> simp only [step, ht, reduceCtorEq, Fair] at hs hf
      split at hs <;> obtain ⟨rfl, rfl⟩ := Prod.mk.inj (Option.some.inj hs)
      · next h =>
        refine .inr ⟨⟨_, get_set ht, rfl⟩, ?_⟩
        simp only [pcOf, get_set ht, ht, Option.getD_some, mPost]
        rw [if_pos h.symm]; omega
      · next h =>
        refine .inr ⟨⟨_, get_set ht, by unfold seen; split <;> rfl⟩, ?_⟩
        have e : mPost s.state (.pCas old) = 3 := if_neg (fun e => h e.symm)
        simp only [pcOf, get_set ht, ht, Option.getD_some, e, seen]
        split <;> simp [mPost]
    | _ => simp [posting] at hpc
  · simp only [pcOf, ht, Option.getD_some]
    cases pc <;> simp only [mPost] <;> (repeat' split) <;> omega

def waiting : PC → Bool
  | .wAdd _ | .wSem _ | .wSub _ | .leave (.acq _) _ => true
  | _ => false

theorem tryWait {s : St} {t : Nat} {pc : PC} (ht : s.ths[t]? = some pc) (hpc : trying pc = true) :
    Within step Fair t (fun _ es => Ended t es) 4 s := by
  refine within_of_measure (fun s => ∃ pc, s.ths[t]? = some pc ∧ trying pc = true) (fun s => mWait (pcOf s t)) ?_ ?_ 4 s
    ⟨pc, ht, hpc⟩ ?_
  · rintro s ⟨pc, ht, hpc⟩
    cases pc with
    | wAdd k | wSub k => exact ⟨.go, _, trivial, by simp only [step, ht]; rfl⟩
    | leave op b => exact ⟨.go, _, trivial, by simp only [step, ht]; rfl⟩
    | wSem k =>
      cases k <;> simp only [trying, Bool.false_eq_true] at hpc
      refine ⟨.go, ?_⟩
      simp only [step, ht]
      split
      all_goals exact ⟨_, trivial, rfl⟩
    | _ => simp [trying] at hpc
  · rintro s a s' es ⟨pc, ht, hpc⟩ hf hs
    cases pc with
    | leave op b =>
      cases a <;> simp only [step, ht, reduceCtorEq] at hs
      obtain ⟨rfl, rfl⟩ := Prod.mk.inj (Option.some.inj hs)
      exact .inl ⟨_, List.mem_singleton.mpr rfl, .inl ⟨_, _, rfl⟩⟩
    | wAdd k | wSub k =>
      cases k <;> simp only [trying, Bool.false_eq_true] at hpc
      cases a <;> simp only [step, ht, reduceCtorEq] at hs
      obtain ⟨rfl, rfl⟩ := Prod.mk.inj (Option.some.inj hs)
      exact .inr ⟨⟨_, get_set ht, rfl⟩, by simp [pcOf, get_set ht, ht, mWait]⟩
    | wSem k =>
      cases k <;> simp only [trying, Bool.false_eq_true] at hpc
      cases a <;> simp only [step, ht, reduceCtorEq] at hs
      · split at hs <;> obtain ⟨rfl, rfl⟩ := Prod.mk.inj (Option.some.inj hs)
        all_goals exact .inr ⟨⟨_, get_set ht, rfl⟩, by simp [pcOf, get_set ht, ht, mWait]⟩
      · obtain ⟨rfl, rfl⟩ := Prod.mk.inj (Option.some.inj hs)
        exact .inl ⟨_, List.mem_singleton.mpr rfl, .inr ⟨_, rfl⟩⟩
    | _ => simp [trying] at hpc
  · simp only [pcOf, ht, Option.getD_some]
    cases pc <;> simp only [mWait] <;> omega

/-- A wait ends, or gets into the wait for the semaphore when its count is zero. -/
theorem wait {s : St} {t : Nat} {pc : PC} (ht : s.ths[t]? = some pc) (hpc : waiting pc = true) :
    Waits t s ∨ Within step Fair t (fun s' es => Ended t es ∨ Waits t s') 4 s := by
  by_cases hW : Waits t s
  · exact .inl hW
  refine .inr (within_of_measure (fun s => ¬ Waits t s ∧ ∃ pc, s.ths[t]? = some pc ∧ waiting pc = true) (fun s => mWait (pcOf s t)) ?_ ?_ 4 s
    ⟨hW, pc, ht, hpc⟩ ?_)
  · rintro s ⟨hW, pc, ht, hpc⟩
    cases pc with
    | wAdd k | wSub k => exact ⟨.go, _, trivial, by simp only [step, ht]; rfl⟩
    | leave op b => exact ⟨.go, _, trivial, by simp only [step, ht]; rfl⟩
    | wSem k =>
      refine ⟨.go, ?_⟩
      simp only [step, ht]
      split
      · exact ⟨_, trivial, rfl⟩
      · next h =>
        cases k with
        | tryWait => exact ⟨_, trivial, rfl⟩
        | _ => exact (hW ⟨_, ht, by simp, by omega⟩).elim
    | _ => simp [waiting] at hpc
  · rintro s a s' es ⟨hW, pc, ht, hpc⟩ hf hs
    by_cases hW' : Waits t s'
    · exact .inl (.inr hW')
    cases pc with
    | leave op b =>
      cases a <;> simp only [step, ht, reduceCtorEq] at hs
      obtain ⟨rfl, rfl⟩ := Prod.mk.inj (Option.some.inj hs)
      exact .inl (.inl ⟨_, List.mem_singleton.mpr rfl, .inl ⟨_, _, rfl⟩⟩)
    | wAdd k | wSub k =>
      cases a <;> simp only [step, ht, reduceCtorEq] at hs
      obtain ⟨rfl, rfl⟩ := Prod.mk.inj (Option.some.inj hs)
      exact .inr ⟨⟨hW', _, get_set ht, rfl⟩, by simp [pcOf, get_set ht, ht, mWait]⟩
    | wSem k =>
      cases k <;> cases a <;> simp only [step, ht, reduceCtorEq] at hs
      all_goals repeat' (split at hs)
      all_goals first
        | contradiction
        | (simp only [reduceCtorEq] at hs; done)
        | (obtain ⟨rfl, rfl⟩ := Prod.mk.inj (Option.some.inj hs); first
            | exact .inl (.inl ⟨_, List.mem_singleton.mpr rfl, .inr ⟨_, rfl⟩⟩)
            | (refine .inr ⟨⟨hW', _, get_set ht, rfl⟩, ?_⟩; simp [pcOf, get_set ht, ht, mWait]; done))
    | _ => simp [waiting] at hpc
  · simp only [pcOf, ht, Option.getD_some]
    cases pc <;> simp only [mWait] <;> omega

end Al

end Verif.AutoSem

namespace Verif.Spin

open Verif.Spec.Alone

namespace Al

theorem tryLock {v : Variant} {s : St} {t : Nat} {th : Th} (ht : s.ths[t]? = some th) (hpc : th.pc = .tryXchg) :
    Within (step v) Fair t (fun _ es => ∃ b, es = [.tried t b]) 1 s := by
  obtain ⟨pc, view⟩ := th
  subst hpc
  refine ⟨⟨.go s.word.val, ?_⟩, ?_⟩
  · simp only [step, ht]
    split
    all_goals exact ⟨_, rfl, rfl⟩
  · intro a s' es hf hs
    cases a <;> simp only [step, ht, reduceCtorEq] at hs
    split at hs <;> cases hs <;> exact .inl ⟨_, rfl⟩

theorem unlock {v : Variant} {s : St} {t : Nat} {th : Th} (ht : s.ths[t]? = some th) (hpc : th.pc = .unlocking) :
    Within (step v) Fair t (fun _ es => es = [.unlocked t]) 1 s := by
  obtain ⟨pc, view⟩ := th
  subst hpc
  refine ⟨⟨.go s.word.val, _, rfl, by simp only [step, ht]; rfl⟩, ?_⟩
  intro a s' es hf hs
  cases a <;> simp only [step, ht, reduceCtorEq] at hs
  cases hs
  exact .inl rfl

theorem xchg {v : Variant} {s : St} {t : Nat} {th : Th} (ht : s.ths[t]? = some th) (hpc : th.pc = .lockXchg) (hv : s.word.val = true) :
    Within (step v) Fair t (fun _ es => es = [.locked t]) 1 s := by
  obtain ⟨pc, view⟩ := th
  subst hpc
  refine ⟨⟨.go s.word.val, _, rfl, by simp only [step, ht, hv]; rfl⟩, ?_⟩
  intro a s' es hf hs
  cases a <;> simp only [step, ht, hv, if_true, reduceCtorEq] at hs
  cases hs
  exact .inl rfl

theorem spin {v : Variant} {s : St} {t : Nat} {th : Th} (ht : s.ths[t]? = some th) (hpc : th.pc = .lockSpin) (hv : s.word.val = true) :
    Within (step v) Fair t (fun _ es => es = [.locked t]) 2 s := by
  obtain ⟨pc, view⟩ := th
  subst hpc
  refine ⟨⟨.go s.word.val, _, rfl, by simp only [step, ht]; rfl⟩, ?_⟩
  intro a s' es hf hs
  cases a <;> simp only [step, ht, reduceCtorEq] at hs
  simp only [Fair, hv] at hf
  subst hf
  cases hs
  exact .inr (xchg (get_set ht) rfl hv)

end Al

end Verif.Spin

namespace Verif.WinEvent

open Verif.Spec.Alone

namespace Al

theorem ended {t : Nat} {es : List Ev} {r : Res} : Ended t (es ++ [.ret t r]) := ⟨_, List.mem_append_right _ (List.mem_singleton.mpr rfl), _, rfl⟩

theorem one {manual : Bool} {s : St} {t : Nat} {pc : PC} (ht : s.ths[t]? = some pc) (hpc : pc = .set ∨ pc = .reset ∨ pc = .tryWait ∨ pc = .abs) :
    Within (step manual) Fair t (fun _ es => Ended t es) 1 s := by
  refine ⟨?_, ?_⟩
  · rcases hpc with rfl | rfl | rfl | rfl
    · exact ⟨.go, _, trivial, by simp only [step, ht]; rfl⟩
    · exact ⟨.go, _, trivial, by simp only [step, ht]; rfl⟩
    all_goals
      cases hv : s.flag
      · exact ⟨.timeout, _, trivial, by simp only [step, ht, hv]; rfl⟩
      · exact ⟨.go, _, trivial, by simp only [step, ht, hv]; rfl⟩
  · intro a s' es hf hs
    rcases hpc with rfl | rfl | rfl | rfl
    all_goals cases a <;> simp only [step, ht, reduceCtorEq] at hs
    all_goals repeat' (split at hs)
    all_goals first
      | (simp only [reduceCtorEq] at hs; done)
      | (obtain ⟨rfl, rfl⟩ := Prod.mk.inj (Option.some.inj hs); exact .inl ended)

theorem timer {manual : Bool} {s : St} {t : Nat} {pc : PC} (ht : s.ths[t]? = some pc) (hpc : pc = .timer) :
    Within (step manual) Fair t (fun _ es => Ended t es) 2 s := by
  subst hpc
  refine ⟨⟨.go, _, trivial, by simp only [step, ht]; rfl⟩, ?_⟩
  intro a s' es hf hs
  cases a <;> simp only [step, ht, reduceCtorEq] at hs
  · obtain ⟨rfl, rfl⟩ := Prod.mk.inj (Option.some.inj hs)
    exact .inr (one (get_set ht) (by simp))
  · obtain ⟨rfl, rfl⟩ := Prod.mk.inj (Option.some.inj hs)
    exact .inl ended

theorem lessWait_lt {left : Nat} (h : lessWait left > 0) : lessWait left < left := by
  unfold lessWait maxWait at *
  split at h <;> split <;> omega

theorem rel {manual : Bool} {t : Nat} (k : Nat) : ∀ {s : St} {left : Nat}, s.ths[t]? = some (.rel left false) → left < k →
    Within (step manual) Fair t (fun _ es => Ended t es) k s := by
  induction k with
  | zero => intro s left _ h; omega
  | succ k ih =>
    intro s left ht hk
    refine ⟨?_, ?_⟩
    · cases hv : s.flag
      · refine ⟨.timeout, ?_⟩
        simp only [step, ht, hv]
        simp only [Bool.false_eq_true, if_false]
        split
        all_goals exact ⟨_, trivial, rfl⟩
      · exact ⟨.go, _, trivial, by simp only [step, ht, hv]; rfl⟩
    · intro a s' es hf hs
      cases a <;> simp only [step, ht, reduceCtorEq] at hs
      · split at hs
        · obtain ⟨rfl, rfl⟩ := Prod.mk.inj (Option.some.inj hs); exact .inl ended
        · simp only [reduceCtorEq] at hs
      · split at hs
        · simp only [reduceCtorEq] at hs
        · split at hs
          · next h =>
            obtain ⟨rfl, rfl⟩ := Prod.mk.inj (Option.some.inj hs)
            exact .inr (ih (get_set ht) (by have := lessWait_lt h; omega))
          · simp only [if_false] at hs
            obtain ⟨rfl, rfl⟩ := Prod.mk.inj (Option.some.inj hs); exact .inl ended
      · obtain ⟨rfl, rfl⟩ := Prod.mk.inj (Option.some.inj hs); exact .inl ended

theorem wait {manual : Bool} {s : St} {t : Nat} (ht : s.ths[t]? = some .wait) (hv : s.flag = true) :
    Within (step manual) Fair t (fun _ es => Ended t es) 1 s := by
  refine ⟨⟨.go, _, trivial, by simp only [step, ht, hv]; rfl⟩, ?_⟩
  intro a s' es hf hs
  cases a <;> simp only [step, ht, hv, if_true, reduceCtorEq] at hs
  all_goals obtain ⟨rfl, rfl⟩ := Prod.mk.inj (Option.some.inj hs)
  all_goals exact .inl ended

end Al

end Verif.WinEvent
