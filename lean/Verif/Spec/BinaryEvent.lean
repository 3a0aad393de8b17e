import Verif.Base.LTS

/-!
# Specification of an auto-reset event

An atomic flag with calls and returns.  A history (sequence of calls and returns) is *linearizable* when it is a
trace of this system: between its call and its return every operation takes effect at one instant (`lin`).
-/

namespace Verif.BinEvent

inductive Op
  | post | wait | tryWait | timedWait
  deriving DecidableEq, Repr

inductive Ev
  | called (t : Nat) (op : Op)
  | ret (t : Nat) (op : Op) (res : Bool)
  deriving DecidableEq, Repr

inductive Status
  | idle
  | pending (op : Op)
  | done (op : Op) (res : Bool)
  deriving DecidableEq, Repr

structure St where
  flag : Bool
  ths : List Status
  deriving DecidableEq, Repr

def init (n : Nat) : St := ⟨false, List.replicate n .idle⟩

inductive Act
  | call (op : Op)
  | lin
  | ret
  deriving DecidableEq, Repr

/-- `post` sets the flag.  A successful wait takes the flag.  `try_wait` and timed waits fail only at an instant at
which the flag is not set. -/
def step : StepFn St (Nat × Act) Ev := fun s (t, a) =>
  match s.ths[t]? with
  | none => none
  | some st =>
    match st, a with
    | .idle, .call op => some ({ s with ths := s.ths.set t (.pending op) }, [.called t op])
    | .pending .post, .lin => some (⟨true, s.ths.set t (.done .post true)⟩, [])
    | .pending .wait, .lin =>
      if s.flag then some (⟨false, s.ths.set t (.done .wait true)⟩, []) else none
    | .pending .tryWait, .lin => some (⟨false, s.ths.set t (.done .tryWait s.flag)⟩, [])
    | .pending .timedWait, .lin => some (⟨false, s.ths.set t (.done .timedWait s.flag)⟩, [])
    | .done op res, .ret => some ({ s with ths := s.ths.set t .idle }, [.ret t op res])
    | _, _ => none

/-- The history `h` of `n` threads is explainable by a single flag. -/
def Linearizable (n : Nat) (h : List Ev) : Prop := ∃ s, Exec step (init n) h s

/-! ## Excluding histories -/

def ops : List Op := [.post, .wait, .tryWait, .timedWait]
def acts : List Act := [.call .post, .call .wait, .call .tryWait, .call .timedWait, .lin, .ret]
/-- All labels that can be enabled with `n` threads. -/
def labels (n : Nat) : List (Nat × Act) := (List.range n).flatMap fun t => acts.map fun a => (t, a)

theorem step_len {s : St} {l : Nat × Act} {s' : St} {es : List Ev} (h : step s l = some (s', es)) :
    es.length ≤ 1 ∧ s'.ths.length = s.ths.length ∧ l.1 < s.ths.length := by
  obtain ⟨t, a⟩ := l
  unfold step at h
  simp only at h
  split at h
  · cases h
  next st hst =>
  have ht : t < s.ths.length := (List.getElem?_eq_some_iff.mp hst).1
  split at h
  all_goals first
    | (cases h; simp [ht])
    | (cases h; done)
    | (split at h
       · cases h; simp [ht]
       · cases h)

theorem mem_labels {s : St} {n : Nat} {l : Nat × Act} {r : St × List Ev} (hn : s.ths.length = n)
    (h : step s l = some r) : l ∈ labels n := by
  have h2 := (step_len (s' := r.1) (es := r.2) h).2.2
  obtain ⟨t, a⟩ := l
  apply List.mem_flatMap.mpr
  refine ⟨t, List.mem_range.mpr (by simpa [hn] using h2), List.mem_map.mpr ⟨a, ?_, rfl⟩⟩
  unfold acts
  cases a with
  | call op => cases op <;> simp
  | lin => simp
  | ret => simp

/-- A certified non-linearizable history. -/
theorem not_linearizable {n : Nat} {S : List St} {c : List (Ev × List St)} (h0 : init n ∈ S)
    (hc : certifies step (labels n) S c = true) (hlast : (S :: c.map Prod.snd).getD c.length [] = []) :
    ¬ Linearizable n (c.map Prod.fst) :=
  not_exec_of_certificate (I := fun s => s.ths.length = n) (by simp [init])
    (fun _ _ _ _ hI hs => by rw [(step_len hs).2.1]; exact hI)
    (fun _ _ _ hI hs => mem_labels hI hs)
    (fun _ _ _ _ hs => (step_len hs).1) h0 hc hlast

/-- Computes the certificate (the closure is iterated `n` times: every thread linearizes at most once). -/
def close (n : Nat) (S : List St) : List St :=
  (List.range n).foldl (fun S _ =>
    (S ++ S.flatMap fun s => (labels n).filterMap fun l =>
      match step s l with
      | some (s', []) => some s'
      | _ => none).eraseDups) S

def advance (n : Nat) (S : List St) (e : Ev) : List St :=
  close n ((S.flatMap fun s => (labels n).filterMap fun l =>
    match step s l with
    | some (s', [e']) => if e' = e then some s' else none
    | _ => none).eraseDups)

def mkCert (n : Nat) : List St → List Ev → List (Ev × List St)
  | _, [] => []
  | S, e :: h => (e, advance n S e) :: mkCert n (advance n S e) h

theorem mkCert_fst (n : Nat) (S : List St) (h : List Ev) : (mkCert n S h).map Prod.fst = h := by
  induction h generalizing S with
  | nil => rfl
  | cons e h ih => simp [mkCert, ih]

/-- Decision procedure for concrete histories. -/
def refutes (n : Nat) (h : List Ev) : Bool :=
  let S := close n [init n]
  let c := mkCert n S h
  S.contains (init n) && certifies step (labels n) S c && ((S :: c.map Prod.snd).getD c.length []).isEmpty

theorem not_linearizable_of_refutes {n : Nat} {h : List Ev} (hr : refutes n h = true) : ¬ Linearizable n h := by
  simp only [refutes, Bool.and_eq_true, List.contains_iff_mem, List.isEmpty_iff] at hr
  have := not_linearizable hr.1.1 hr.1.2 hr.2
  rwa [mkCert_fst] at this

end Verif.BinEvent
