import Verif.Proof.Monitor

namespace Verif.Monitor

open Verif.Atomic (Kind Op Ev Obj)

variable {D S : Type}

/-! ## Refinement -/

/-- What the atomic object knows of a thread. -/
def PC.abs : PC S → Atomic.Status S
  | .idle => .idle
  | .want k | .inside k | .asleep k => .pending (.acq k) false
  | .woken k to | .taking k to => .pending (.acq k) to
  | .expired => .pending (.acq .timed) true
  | .early k => .pending (.acq k) false
  | .wantSig x | .sig x => .pending (.sig x) false
  | .notifying x _ => .done (.sig x) true
  | .leave op res => .done op res

def St.abs (s : St D S) : Atomic.St D S := ⟨s.d, s.ths.map PC.abs⟩

theorem abs_get {s : St D S} {t : Nat} {pc : PC S} (h : s.ths[t]? = some pc) : s.abs.ths[t]? = some pc.abs := by
  simp [St.abs, h]

theorem map_set (f : PC S → Atomic.Status S) (l : List (PC S)) (t : Nat) (pc : PC S) :
    (l.set t pc).map f = (l.map f).set t (f pc) := by
  rw [List.map_set]

theorem map_set_same {ths : List (PC S)} {t : Nat} {pc pc' : PC S} (h : ths[t]? = some pc) (he : pc'.abs = pc.abs) :
    (ths.set t pc').map PC.abs = ths.map PC.abs := by
  rw [map_set, he]
  apply List.ext_getElem?
  intro i
  rw [List.getElem?_set]
  split
  · next hi =>
    subst hi
    simp only [List.length_map, List.getElem?_map, h, Option.map_some]
    have : t < ths.length := (List.getElem?_eq_some_iff.mp h).1
    simp [this]
  · rfl

/-- Zero or one step of the atomic object. -/
inductive Sim (O : Obj D S) (a : Atomic.St D S) (es : List (Ev S)) (a' : Atomic.St D S) : Prop
  | stutter (h1 : a' = a) (h2 : es = []) : Sim O a es a'
  | one (l : Nat × Atomic.Act S) (h : Atomic.step O a l = some (a', es)) : Sim O a es a'

theorem sim_same {O : Obj D S} {s : St D S} {t : Nat} {pc pc' : PC S} {o : Option Nat} (h : s.ths[t]? = some pc)
    (he : pc'.abs = pc.abs) : Sim O s.abs [] (St.abs ⟨s.d, o, s.ths.set t pc'⟩) :=
  .stutter (by simp only [St.abs]; rw [map_set_same h he]) rfl

theorem aCall {O : Obj D S} {a : Atomic.St D S} {t : Nat} (h : a.ths[t]? = some .idle) (op : Op S) :
    Atomic.step O a (t, .call op) = some (⟨a.d, a.ths.set t (.pending op false)⟩, [.called t op]) := by
  simp [Atomic.step, h]

theorem aExpire {O : Obj D S} {a : Atomic.St D S} {t : Nat} {e : Bool} (h : a.ths[t]? = some (.pending (.acq .timed) e)) :
    Atomic.step O a (t, .expire) = some (⟨a.d, a.ths.set t (.pending (.acq .timed) true)⟩, [.timedOut t]) := by
  simp [Atomic.step, h]

theorem aSig {O : Obj D S} {a : Atomic.St D S} {t : Nat} {e : Bool} {x : S} (h : a.ths[t]? = some (.pending (.sig x) e)) :
    Atomic.step O a (t, .lin) = some (⟨O.put x a.d, a.ths.set t (.done (.sig x) true)⟩, []) := by
  simp [Atomic.step, h]

theorem aTake {O : Obj D S} {a : Atomic.St D S} {t : Nat} {e : Bool} {k : Kind} (h : a.ths[t]? = some (.pending (.acq k) e))
    (hr : O.ready a.d = true) :
    Atomic.step O a (t, .lin) = some (⟨O.take a.d, a.ths.set t (.done (.acq k) true)⟩, []) := by
  simp [Atomic.step, h, hr]

theorem aFail {O : Obj D S} {a : Atomic.St D S} {t : Nat} {e : Bool} {k : Kind} (h : a.ths[t]? = some (.pending (.acq k) e))
    (hr : O.ready a.d = false) (hm : Atomic.mayFail k e = true) :
    Atomic.step O a (t, .lin) = some (⟨a.d, a.ths.set t (.done (.acq k) false)⟩, []) := by
  simp [Atomic.step, h, hr, hm]

theorem aRet {O : Obj D S} {a : Atomic.St D S} {t : Nat} {op : Op S} {r : Bool} (h : a.ths[t]? = some (.done op r)) :
    Atomic.step O a (t, .ret) = some (⟨a.d, a.ths.set t .idle⟩, [.ret t op r]) := by
  simp [Atomic.step, h]

theorem aThrow {O : Obj D S} {a : Atomic.St D S} {t : Nat} {op : Op S} {e : Bool} (h : a.ths[t]? = some (.pending op e)) :
    Atomic.step O a (t, .throw) = some (⟨a.d, a.ths.set t .idle⟩, [.threw t op]) := by
  simp [Atomic.step, h]

theorem abs_set (s : St D S) (o : Option Nat) (d' : D) (t : Nat) (pc : PC S) :
    St.abs ⟨d', o, s.ths.set t pc⟩ = ⟨d', s.abs.ths.set t pc.abs⟩ := by
  simp only [St.abs, map_set]

theorem sim_step {M : Mon D S} {s s' : St D S} {l : Nat × Act S} {es : List (Ev S)} (I : Inv M s)
    (h : step M s l = some (s', es)) : Sim M.obj s.abs es s'.abs := by
  obtain ⟨t, a⟩ := l
  unfold step at h
  simp only at h
  split at h
  · cases h
  next pc ht =>
  have hat := abs_get ht
  have hk := I.kinds t pc ht
  split at h
  · next k =>
    cases h
    rw [abs_set]
    exact .one (t, .call (.acq k)) (aCall hat _)
  · next x =>
    cases h
    rw [abs_set]
    exact .one (t, .call (.sig x)) (aCall hat _)
  · split at h
    · cases h; exact sim_same ht rfl
    · cases h
  · next k =>
    split at h
    · cases h; exact sim_same ht rfl
    · next hr =>
      split at h
      · cases h
        have hr' : M.obj.ready s.abs.d = false := Bool.eq_false_iff.mpr hr
        rw [abs_set]
        exact .one (t, .lin) (aFail hat hr' rfl)
      · cases h; exact sim_same ht rfl
  · cases h; exact sim_same ht rfl
  · cases h
    rw [abs_set]
    exact .one (t, .expire) (aExpire hat)
  · next k to =>
    split at h
    · cases h
      refine sim_same ht ?_
      cases to
      · rfl
      · rw [hk.1 k rfl]; rfl
    · cases h
  · split at h
    · split at h
      · cases h; exact sim_same ht rfl
      · cases h
    · cases h
  · cases h; exact sim_same ht rfl
  · split at h
    · cases h; exact sim_same ht rfl
    · next hr =>
      cases h
      have hr' : M.obj.ready s.abs.d = false := Bool.eq_false_iff.mpr hr
      rw [abs_set]
      exact .one (t, .lin) (aFail hat hr' rfl)
  · next k to =>
    cases h
    have hr' : M.obj.ready s.abs.d = true := I.taking t _ ht rfl
    rw [abs_set]
    exact .one (t, .lin) (aTake hat hr')
  · split at h
    · cases h; exact sim_same ht rfl
    · cases h
  · split at h <;>
    · cases h
      rw [abs_set]
      exact .one (t, .lin) (aSig hat)
  · split at h
    · cases h; exact sim_same ht rfl
    · cases h
  · next x v to =>
    split at h
    · next hv =>
      cases h
      have hne : v ≠ t := by rintro rfl; rw [hv] at ht; cases ht
      have ht' : (s.ths.set v (.woken .timed to))[t]? = some (.notifying x false) := by rw [get_set_ne hne]; exact ht
      have hm : ((s.ths.set v (.woken .timed to)).set t (.leave (.sig x) true)).map PC.abs =
          (s.ths.set v (.woken .timed to)).map PC.abs := map_set_same ht' rfl
      cases to
      · refine .stutter ?_ rfl
        simp only [St.abs, hm]
        rw [map_set_same (pc' := .woken .timed false) hv rfl]
      · have hs : St.abs { s with ths := (s.ths.set v (.woken .timed true)).set t (.leave (.sig x) true) } =
            ⟨s.d, s.abs.ths.set v (.pending (.acq .timed) true)⟩ := by
          simp only [St.abs, hm]; rw [map_set]; rfl
        rw [hs]
        exact .one (v, .expire) (aExpire (abs_get hv))
    · next k _ hv =>
      cases h
      have hne : v ≠ t := by rintro rfl; rw [hv] at ht; cases ht
      have ht' : (s.ths.set v (.woken k false))[t]? = some (.notifying x false) := by rw [get_set_ne hne]; exact ht
      have hm : ((s.ths.set v (.woken k false)).set t (.leave (.sig x) true)).map PC.abs =
          (s.ths.set v (.woken k false)).map PC.abs := map_set_same ht' rfl
      refine .stutter ?_ rfl
      simp only [St.abs, hm]
      rw [map_set_same (pc' := .woken k false) hv rfl]
    · cases h
  · next x =>
    cases h
    refine .stutter ?_ rfl
    simp only [St.abs, List.map_map]
    have : (PC.abs ∘ PC.wakeUp : PC S → Atomic.Status S) = PC.abs := by
      funext pc
      cases pc <;> rfl
    rw [this, map_set_same (pc' := .leave (.sig x) true) ht rfl]
  · next op res =>
    cases h
    rw [abs_set]
    exact .one (t, .ret) (aRet hat)
  · split at h
    · cases h
      rw [abs_set]
      exact .one (t, .throw) (aThrow hat)
    · cases h
  · split at h
    · cases h
      rw [abs_set]
      exact .one (t, .throw) (aThrow hat)
    · cases h
  · split at h
    · cases h
      rw [abs_set]
      exact .one (t, .throw) (aThrow hat)
    · cases h
  · split at h
    · cases h
      rw [abs_set]
      exact .one (t, .throw) (aThrow hat)
    · cases h
  · cases h

/-- Every execution of the monitor is one of the atomic object with the same calls and returns. -/
theorem refines {M : Mon D S} {n : Nat} {tr : List (Ev S)} {s : St D S} (h : Exec (step M) (init M n) tr s) :
    Exec (Atomic.step M.obj) (Atomic.init M.obj n) tr s.abs := by
  induction h with
  | init =>
    have : (init M n).abs = Atomic.init M.obj n := by simp [St.abs, init, Atomic.init, Mon.obj, PC.abs]
    rw [this]
    exact Exec.init
  | snoc hex hs ih =>
    cases sim_step (inv_exec hex) hs with
    | stutter h1 h2 => rw [h1, h2, List.append_nil]; exact ih
    | one l hl => exact ih.snoc hl

end Verif.Monitor
