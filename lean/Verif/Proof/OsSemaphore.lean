import Verif.Base.Count
import Verif.Spec.OsSemaphore

namespace Verif.OsSem

def PC.donePost : PC → Bool
  | .done .post (.returned true) => true
  | _ => false

def PC.doneWait : PC → Bool
  | .done .post _ => false
  | .done _ (.returned true) => true
  | _ => false

def PC.openPost : PC → Bool
  | .calling .post | .done .post _ => true
  | _ => false

structure Inv (max c₀ : Nat) (tr : List Ev) (s : St) : Prop where
  conserved : c₀ + posted tr + s.ths.countP PC.donePost = s.count + waited tr + s.ths.countP PC.doneWait
  bound : s.count ≤ max
  posts : posted tr + s.ths.countP PC.openPost ≤ postCalls tr

/-- The effect of an answer on the counter agrees with what is reported. -/
theorem answer_spec {i : Impl} {max : Nat} {op : Op} {a : Answer} {c c' : Nat} (h : os i max op a c = some c')
    (hc : c ≤ max) :
    c' ≤ max ∧
    (match decide i op a with
      | .retry => c' = c
      | .finish o => c + b2n (PC.donePost (.done op o)) = c' + b2n (PC.doneWait (.done op o))) := by
  cases i <;> cases op <;> cases a <;> simp [os] at h <;> simp [decide, PC.donePost, PC.doneWait] <;> omega

/-- Asking again after `unavailable` leaves the counter alone. -/
theorem unavailable_spec {i : Impl} {max : Nat} {op : Op} {c c' : Nat} (h : os i max op .unavailable c = some c') :
    c' = c := by
  cases op <;> simp only [os] at h <;> first | (cases h; done) | (split at h <;> simp_all)

theorem inv_init {max c₀ n : Nat} (h : c₀ ≤ max) : Inv max c₀ [] (init c₀ n) := by
  constructor
  · simp [posted, waited, init, countP_replicate_false (p := PC.donePost) (a := PC.idle) rfl,
      countP_replicate_false (p := PC.doneWait) (a := PC.idle) rfl]
  · exact h
  · simp [posted, postCalls, init, countP_replicate_false (p := PC.openPost) (a := PC.idle) rfl]

theorem posted_append (a b : List Ev) : posted (a ++ b) = posted a + posted b := List.countP_append
theorem waited_append (a b : List Ev) : waited (a ++ b) = waited a + waited b := List.countP_append
theorem postCalls_append (a b : List Ev) : postCalls (a ++ b) = postCalls a + postCalls b := List.countP_append

theorem inv_step {i : Impl} {max c₀ : Nat} {tr : List Ev} {s s' : St} {l : Nat × Act} {es : List Ev}
    (I : Inv max c₀ tr s) (h : step i max s l = some (s', es)) : Inv max c₀ (tr ++ es) s' := by
  obtain ⟨t, a⟩ := l
  obtain ⟨I1, I2, I3⟩ := I
  unfold step at h
  simp only at h
  split at h
  · cases h
  next pc ht =>
  have c1 := fun b => countP_set (p := PC.donePost) (b := b) ht
  have c2 := fun b => countP_set (p := PC.doneWait) (b := b) ht
  have c3 := fun b => countP_set (p := PC.openPost) (b := b) ht
  split at h
  · next op =>
    cases h
    have k1 := c1 (.calling op); have k2 := c2 (.calling op); have k3 := c3 (.calling op)
    simp only [PC.donePost, PC.doneWait, b2n_false] at k1 k2
    refine ⟨?_, I2, ?_⟩
    · rw [posted_append, waited_append]
      simp only [posted, waited, List.countP_cons, List.countP_nil, Ev.isPosted, Ev.isWaited] at *
      simp only [Bool.false_eq_true, if_false]
      omega
    · rw [posted_append, postCalls_append]
      cases op <;>
      · simp only [PC.openPost, b2n_false, b2n_true] at k3
        simp only [posted, postCalls, List.countP_cons, List.countP_nil, Ev.isPosted, Ev.isPostCall] at *
        simp only [Bool.false_eq_true, if_false, if_true]
        omega
  · next op ans again =>
    split at h
    · cases h
    next c hc =>
    split at h
    · split at h
      · next hh =>
        cases h
        rw [hh.2] at hc
        have := unavailable_spec hc
        subst this
        rw [List.append_nil]
        exact ⟨I1, I2, I3⟩
      · cases h
    · have hs := answer_spec hc I2
      split at h
      · next hd =>
        cases h
        rw [hd] at hs
        have := hs.2
        simp only at this
        subst this
        rw [List.append_nil]
        exact ⟨I1, I2, I3⟩
      · next o hd =>
        cases h
        rw [hd] at hs
        have k1 := c1 (.done op o); have k2 := c2 (.done op o); have k3 := c3 (.done op o)
        have hs' := hs.2
        simp only at hs'
        have e1 : b2n (PC.calling op).donePost = 0 := rfl
        have e2 : b2n (PC.calling op).doneWait = 0 := rfl
        have e3 : b2n (PC.calling op).openPost = b2n (PC.done op o).openPost := by cases op <;> rfl
        rw [List.append_nil]
        refine ⟨?_, hs.1, ?_⟩
        · simp only
          omega
        · simp only
          omega
  · next op o =>
    cases h
    have k1 := c1 .idle; have k2 := c2 .idle; have k3 := c3 .idle
    simp only [show PC.donePost .idle = false from rfl, show PC.doneWait .idle = false from rfl,
      show PC.openPost .idle = false from rfl, b2n_false] at k1 k2 k3
    refine ⟨?_, I2, ?_⟩
    · rw [posted_append, waited_append]
      have e1 : posted [Ev.ret t op o] = b2n (PC.done op o).donePost := by
        cases op <;> rcases o with (_ | _) | _ | _ <;> rfl
      have e2 : waited [Ev.ret t op o] = b2n (PC.done op o).doneWait := by
        cases op <;> rcases o with (_ | _) | _ | _ <;> rfl
      rw [e1, e2]
      simp only
      omega
    · rw [posted_append, postCalls_append]
      have e1 : posted [Ev.ret t op o] ≤ b2n (PC.done op o).openPost := by
        cases op <;> rcases o with (_ | _) | _ | _ <;> simp [posted, PC.openPost, Ev.isPosted]
      have e2 : postCalls [Ev.ret t op o] = 0 := rfl
      rw [e2]
      simp only
      omega
  · cases h

theorem inv_exec {i : Impl} {max c₀ n : Nat} {tr : List Ev} {s : St} (hc : c₀ ≤ max)
    (h : Exec (step i max) (init c₀ n) tr s) : Inv max c₀ tr s :=
  h.invariant (Inv max c₀) (inv_init hc) (fun _ _ _ _ _ I hs => inv_step I hs)

theorem dispatchLoop_eq (i : UInt32) (count : Nat) : dispatchLoop i count = count + i.toNat := by
  fun_induction dispatchLoop i count with
  | case1 i count h ih =>
    have h0 : 0 < i.toNat := by simpa [UInt32.lt_iff_toNat_lt] using h
    rw [ih, UInt32.toNat_sub_of_le _ _ (by rw [UInt32.le_iff_toNat_le]; simp only [UInt32.toNat_one]; omega)]
    simp only [UInt32.toNat_one]
    omega
  | case2 i count h =>
    have h0 : i.toNat = 0 := by
      have : ¬ 0 < i.toNat := by simpa [UInt32.lt_iff_toNat_lt] using h
      omega
    omega

theorem create_eq {impl : Impl} {max c : Nat} {i : UInt32} (h : create impl max i = some c) : c = i.toNat ∧ c ≤ max := by
  cases impl <;> simp only [create] at h <;> split at h <;>
    first
    | (simp only [Option.some.injEq, dispatchLoop_eq] at h; omega)
    | cases h

/-- One thread takes `k` permits one after the other. -/
theorem take_k (i : Impl) (max c : Nat) (k : Nat) (hk : k ≤ c) :
    ∃ tr, Exec (step i max) (init c 1) tr ⟨c - k, [.idle]⟩ ∧ waited tr = k ∧ postCalls tr = 0 := by
  induction k with
  | zero => exact ⟨[], Exec.init, rfl, rfl⟩
  | succ k ih =>
    obtain ⟨tr, hex, h1, h2⟩ := ih (by omega)
    have hpos : 0 < c - k := by omega
    have hd : decide i .wait .ok = .finish (.returned true) := by cases i <;> rfl
    have s1 := hex.snoc (l := (0, .call .wait)) (es := [.called 0 .wait]) (s' := ⟨c - k, [.calling .wait]⟩) rfl
    have s2 := s1.snoc (l := (0, .answer .ok false)) (es := []) (s' := ⟨c - k - 1, [.done .wait (.returned true)]⟩)
      (by simp [step, os, hpos, hd])
    have s3 := s2.snoc (l := (0, .ret)) (es := [.ret 0 .wait (.returned true)]) (s' := ⟨c - k - 1, [.idle]⟩) rfl
    have e : c - (k + 1) = c - k - 1 := by omega
    refine ⟨_, by rw [e]; exact s3, ?_, ?_⟩
    · simp only [waited_append, h1]; rfl
    · simp only [postCalls_append, h2]; rfl

end Verif.OsSem
