import Verif.Proof.WinCondVarStamp

/-! # Units granted by notify calls and units consumed by waiters -/

namespace Verif.WinCv

/-- The event does not matter for the units. -/
def Ev.plain : Ev → Bool
  | .decided _ _ _ | .took _ _ => false
  | _ => true

theorem grant_fst (c : Nat) (tr : List Ev) (a : Nat × Nat) :
    (tr.foldl (grantStep c) a).1 = a.1 + decisions tr := by
  induction tr generalizing a with
  | nil => rfl
  | cons e tr ih =>
    rw [List.foldl_cons, ih]
    unfold decisions
    rw [List.countP_cons]
    cases e <;> simp [grantStep, Ev.isDecided] <;> omega

theorem granted_decided (c : Nat) (tr : List Ev) (t : Nat) (all : Bool) (m : Nat) :
    granted c (tr ++ [.decided t all m]) = if decisions tr + 1 = c then m else granted c tr := by
  have := grant_fst c tr (0, 0)
  simp only [granted, List.foldl_append, List.foldl_cons, List.foldl_nil, grantStep]
  rw [this, Nat.zero_add]

theorem granted_other (c : Nat) (tr : List Ev) {e : Ev} (h : e.isDecided = false) :
    granted c (tr ++ [e]) = granted c tr := by
  simp only [granted, List.foldl_append, List.foldl_cons, List.foldl_nil]
  cases e <;> first | rfl | cases h

theorem granted_zero {c : Nat} {tr : List Ev} (h : decisions tr < c) : granted c tr = 0 := by
  have key : ∀ a : Nat × Nat, a.2 = 0 → a.1 + decisions tr < c → (tr.foldl (grantStep c) a).2 = 0 := by
    clear h
    induction tr with
    | nil => exact fun a h _ => h
    | cons e tr ih =>
      intro a h h'
      rw [List.foldl_cons]
      unfold decisions at h'
      rw [List.countP_cons] at h'
      apply ih
      · cases e <;> simp only [grantStep] <;> try exact h
        rw [if_neg (by simp [Ev.isDecided] at h'; omega)]; exact h
      · cases e <;> simp [grantStep, Ev.isDecided, decisions] at h' ⊢ <;> omega
  exact key (0, 0) rfl (by simpa using h)

theorem allGranted_append (tr es : List Ev) : allGranted (tr ++ es) = allGranted tr + allGranted es := by
  induction tr with
  | nil => simp [allGranted]
  | cons e tr ih => cases e <;> simp [allGranted, ih] <;> omega

def cnt (c : Nat) (x : Node) : Nat := x.units.count c

structure Grants (tr : List Ev) (s : St) : Prop where
  per : ∀ c, consumed c tr + sumOn (cnt c) s.nodes + (if c = s.calls then sumOn PC.toWake s.ths else 0) = granted c tr
  sum : allConsumed tr + sumOn Node.n s.nodes + sumOn PC.toWake s.ths = allGranted tr

theorem grants_init (n : Nat) : Grants [] (init n) where
  per c := by
    rw [show sumOn PC.toWake (init n).ths = 0 from sumOn_replicate (f := PC.toWake) (a := .idle) rfl n]
    rw [ite_self]
    simp [consumed, granted, init, sumOn]
  sum := by
    rw [show sumOn PC.toWake (init n).ths = 0 from sumOn_replicate (f := PC.toWake) (a := .idle) rfl n]
    simp [allConsumed, allGranted, init, sumOn]

theorem consumed_append (c : Nat) (tr es : List Ev) : consumed c (tr ++ es) = consumed c tr + consumed c es :=
  List.countP_append

theorem allConsumed_append (tr es : List Ev) : allConsumed (tr ++ es) = allConsumed tr + allConsumed es :=
  List.countP_append

theorem granted_plain {c : Nat} (tr : List Ev) {es : List Ev} (h : ∀ e ∈ es, Ev.plain e = true) :
    granted c (tr ++ es) = granted c tr ∧ consumed c (tr ++ es) = consumed c tr ∧
    allGranted (tr ++ es) = allGranted tr ∧ allConsumed (tr ++ es) = allConsumed tr := by
  rw [consumed_append, allGranted_append, allConsumed_append]
  have h1 : consumed c es = 0 := by
    unfold consumed
    rw [List.countP_eq_zero]
    intro e he hp
    have := h e he
    cases e <;> first | (cases hp; done) | (cases this; done)
  have h2 : allConsumed es = 0 := by
    unfold allConsumed
    rw [List.countP_eq_zero]
    intro e he hp
    have := h e he
    cases e <;> first | (cases hp; done) | (cases this; done)
  have h3 : allGranted es = 0 := by
    clear h1 h2
    induction es with
    | nil => rfl
    | cons e es ih =>
      have h0 := h e (List.mem_cons_self ..)
      have := ih (fun e he => h e (List.mem_cons_of_mem _ he))
      cases e <;> first | exact this | cases h0
  have h4 : granted c (tr ++ es) = granted c tr := by
    clear h1 h2 h3
    unfold granted
    rw [List.foldl_append]
    generalize tr.foldl (grantStep c) (0, 0) = a
    induction es generalizing a with
    | nil => rfl
    | cons e es ih =>
      have h0 := h e (List.mem_cons_self ..)
      rw [List.foldl_cons]
      have := ih (fun e he => h e (List.mem_cons_of_mem _ he)) (grantStep c a e)
      rw [this]
      cases e <;> first | rfl | cases h0
  exact ⟨h4, by omega, by omega, by omega⟩

/-- A step that does not touch units. -/
theorem grants_keep {tr es : List Ev} {s s' : St} (hi : Grants tr s) {t : Nat} {pc pc' : PC} (h : s.ths[t]? = some pc)
    (hths : s'.ths = s.ths.set t pc') (hcalls : s'.calls = s.calls)
    (hn : sumOn Node.n s'.nodes = sumOn Node.n s.nodes) (hu : ∀ c, sumOn (cnt c) s'.nodes = sumOn (cnt c) s.nodes)
    (hw : pc'.toWake = pc.toWake) (hes : ∀ e ∈ es, Ev.plain e = true) : Grants (tr ++ es) s' := by
  have h1 := sumOn_set (f := PC.toWake) (b := pc') h
  have h2 : sumOn PC.toWake (s.ths.set t pc') = sumOn PC.toWake s.ths := by omega
  refine ⟨?_, ?_⟩
  · intro c
    obtain ⟨e1, e2, e3, e4⟩ := granted_plain (c := c) tr hes
    rw [e1, e2, hu c, hths, h2, hcalls]
    exact hi.per c
  · obtain ⟨e1, e2, e3, e4⟩ := granted_plain (c := 0) tr hes
    rw [e3, e4, hn, hths, h2]
    exact hi.sum

theorem sumOn_set_same {α : Type} {f : α → Nat} {l : List α} {i : Nat} {a b : α} (h : l[i]? = some a)
    (he : f b = f a) : sumOn f (l.set i b) = sumOn f l := by
  have := sumOn_set (f := f) (b := b) h
  omega

theorem grants_step {tr : List Ev} {s s' : St} {t : Nat} {es : List Ev} (hl : Locks s) (hc : Counts s)
    (hs : Stamps tr s) (hi : Grants tr s) (h : Step s t s' es) : Grants (tr ++ es) s' := by
  cases h with
  | userLock h hu => exact (List.append_nil tr).symm ▸ ⟨hi.per, hi.sum⟩
  | userUnlock h hu => exact (List.append_nil tr).symm ▸ ⟨hi.per, hi.sum⟩
  | @goto pc pc' es h hg =>
    refine grants_keep hi h rfl rfl rfl (fun _ => rfl) ?_ ?_
    · cases hg <;> rfl
    · cases hg <;> intro e he <;> simp at he <;> subst he <;> rfl
  | @enter pc pc' h hg ho =>
    exact grants_keep hi h rfl rfl rfl (fun _ => rfl) (by cases hg <;> rfl) (fun e he => by cases he)
  | @exit pc pc' es h hg =>
    refine grants_keep hi h rfl rfl rfl (fun _ => rfl) ?_ ?_
    · cases hg <;> rfl
    · cases hg <;> intro e he <;> simp at he <;> subst he <;> rfl
  | @first k h hn =>
    refine grants_keep hi h rfl rfl ?_ ?_ rfl ?_
    · rw [hn]; rfl
    · intro c; rw [hn]; rfl
    · intro e he; simp at he; subst he; rfl
  | @join k e x h hx hn hw =>
    refine grants_keep hi h rfl rfl (sumOn_set_same hx rfl) (fun c => sumOn_set_same hx rfl) rfl ?_
    intro e he; simp at he; subst he; rfl
  | advance h hx hn he => exact (List.append_nil tr).symm ▸ ⟨hi.per, hi.sum⟩
  | @around k e x h hx hn he =>
    exact grants_keep hi h rfl rfl rfl (fun _ => rfl) rfl (fun e he => by cases he)
  | @create k e x h hx =>
    refine grants_keep hi h rfl rfl ?_ ?_ rfl ?_
    · show sumOn Node.n (_ ++ _) = _
      rw [sumOn_append, sumOn_set_same (b := { x with next := s.nodes.length }) hx rfl]; rfl
    · intro c
      show sumOn (cnt c) (_ ++ _) = _
      rw [sumOn_append, sumOn_set_same (b := { x with next := s.nodes.length }) hx rfl]; rfl
    · intro e he; simp at he; subst he; rfl
  | @unlock k q h =>
    refine grants_keep hi h rfl rfl rfl (fun _ => rfl) rfl ?_
    intro e he; simp at he; subst he; rfl
  | @token k q x h hx ht =>
    exact grants_keep hi h rfl rfl (sumOn_set_same hx rfl) (fun c => sumOn_set_same hx rfl) rfl (fun e he => by cases he)
  | @leave pc q r x h hl' hx hn =>
    have hw : pc.toWake = 0 := by cases hl' <;> rfl
    have h1 := sumOn_set (f := PC.toWake) (b := .relock r) h
    rw [hw, show PC.toWake (.relock r) = 0 from rfl] at h1
    have hlen := (hc.ok _ _ hx).len
    obtain ⟨d, us, hus⟩ : ∃ d us, x.units = d :: us := by
      cases hu : x.units with
      | nil => rw [hu] at hlen; simp at hlen; omega
      | cons d us => exact ⟨d, us, rfl⟩
    refine ⟨?_, ?_⟩
    · intro c
      rw [granted_other c tr rfl, ← hi.per c, consumed_append]
      have h2 := sumOn_set (f := cnt c) (b := x.leave) hx
      rw [show cnt c x = us.count c + (if d == c then 1 else 0) by simp [cnt, hus, List.count_cons],
        show cnt c x.leave = us.count c by simp [cnt, Node.leave, hus]] at h2
      rw [show consumed c [Ev.took t (x.units.headD 0)] = if d == c then 1 else 0 by
        simp [consumed, hus, List.countP_cons, Ev.tookFrom]]
      simp only
      rw [show sumOn PC.toWake (s.ths.set t (PC.relock r)) = sumOn PC.toWake s.ths by omega]
      omega
    · rw [allGranted_append, allConsumed_append, show allGranted [Ev.took t (x.units.headD 0)] = 0 from rfl,
        show allConsumed [Ev.took t (x.units.headD 0)] = 1 from rfl]
      have h2 := sumOn_set (f := Node.n) (b := x.leave) hx
      rw [show x.leave.n = x.n - 1 from rfl] at h2
      have h3 := hi.sum
      simp only
      omega
  | @leave0 pc q r x h hl' hx hn =>
    have hlen := (hc.ok _ _ hx).len
    have hus : x.units = [] := List.eq_nil_of_length_eq_zero (hlen.trans hn)
    refine grants_keep hi h (pc' := .relock r) rfl rfl (sumOn_set_same hx ?_) (fun c => sumOn_set_same hx ?_) ?_ (fun e he => by cases he)
    · simp only [Node.leave, hn]
    · simp only [cnt, Node.leave, hus, List.tail_nil]
    · cases hl' <;> rfl
  | @relock r h hu =>
    refine grants_keep hi h rfl rfl rfl (fun _ => rfl) rfl ?_
    intro e he; simp at he; subst he; rfl
  | @decide0 all h h0 =>
    have hz := toWake_zero hl h rfl rfl
    have h1 := sumOn_set (f := PC.toWake) (b := .nExit) h
    rw [show PC.toWake (.nCheck all) = 0 from rfl, show PC.toWake .nExit = 0 from rfl, hz] at h1
    have hcl := hs.calls
    refine ⟨?_, ?_⟩
    · intro c
      have h2 := hi.per c
      rw [granted_decided, consumed_append, show consumed c [Ev.decided t all 0] = 0 from rfl, ← hcl]
      simp only
      rw [show sumOn PC.toWake (s.ths.set t .nExit) = 0 by omega]
      rw [hz] at h2
      simp only [ite_self, Nat.add_zero] at h2 ⊢
      by_cases hcc : s.calls + 1 = c
      · have := granted_zero (c := c) (tr := tr) (by omega)
        rw [if_pos hcc]; omega
      · rw [if_neg hcc]; exact h2
    · have h2 := hi.sum
      rw [allGranted_append, allConsumed_append, show allGranted [Ev.decided t all 0] = 0 from rfl,
        show allConsumed [Ev.decided t all 0] = 0 from rfl]
      simp only; omega
  | @decide all m h h0 hm =>
    have hz := toWake_zero hl h rfl rfl
    have h1 := sumOn_set (f := PC.toWake) (b := .waking m) h
    rw [show PC.toWake (.nCheck all) = 0 from rfl, show PC.toWake (.waking m) = m from rfl, hz] at h1
    have hcl := hs.calls
    refine ⟨?_, ?_⟩
    · intro c
      have h2 := hi.per c
      rw [granted_decided, consumed_append, show consumed c [Ev.decided t all m] = 0 from rfl, ← hcl]
      simp only
      rw [show sumOn PC.toWake (s.ths.set t (.waking m)) = m by omega]
      rw [hz] at h2
      simp only [ite_self, Nat.add_zero] at h2
      by_cases hcc : s.calls + 1 = c
      · have := granted_zero (c := c) (tr := tr) (by omega)
        rw [if_pos hcc, if_pos hcc.symm]; omega
      · rw [if_neg hcc, if_neg (Ne.symm hcc)]; exact h2
    · have h2 := hi.sum
      rw [allGranted_append, allConsumed_append, show allGranted [Ev.decided t all m] = m from rfl,
        show allConsumed [Ev.decided t all m] = 0 from rfl]
      simp only; omega
  | @wakeLast c x m h hx hm hcc =>
    have h1 := sumOn_set (f := PC.toWake) (b := .nExit) h
    rw [show PC.toWake (.waking c) = c from rfl, show PC.toWake .nExit = 0 from rfl] at h1
    refine ⟨?_, ?_⟩
    · intro d
      have h2 := hi.per d
      have h3 := sumOn_set (f := cnt d) (b := x.wake m s.calls) hx
      rw [show cnt d (x.wake m s.calls) = cnt d x + (if s.calls == d then m else 0) by
        simp [cnt, Node.wake, List.count_append, List.count_replicate]] at h3
      rw [granted_other d tr rfl, consumed_append, show consumed d [Ev.issued t m] = 0 from rfl, ← h2]
      simp only
      by_cases hd : d = s.calls
      · subst hd
        simp only [if_true, beq_self_eq_true] at h3 ⊢; omega
      · rw [if_neg hd, if_neg hd]
        rw [if_neg (by simpa using Ne.symm hd)] at h3
        omega
    · have h2 := hi.sum
      have h3 := sumOn_set (f := Node.n) (b := x.wake m s.calls) hx
      rw [show (x.wake m s.calls).n = x.n + m from rfl] at h3
      rw [allGranted_append, allConsumed_append, show allGranted [Ev.issued t m] = 0 from rfl,
        show allConsumed [Ev.issued t m] = 0 from rfl]
      simp only; omega
  | @wakeNext c x m h hx hm hcc =>
    have h1 := sumOn_set (f := PC.toWake) (b := .waking (c - m)) h
    rw [show PC.toWake (.waking c) = c from rfl, show PC.toWake (.waking (c - m)) = c - m from rfl] at h1
    refine ⟨?_, ?_⟩
    · intro d
      have h2 := hi.per d
      have h3 := sumOn_set (f := cnt d) (b := x.wake m s.calls) hx
      rw [show cnt d (x.wake m s.calls) = cnt d x + (if s.calls == d then m else 0) by
        simp [cnt, Node.wake, List.count_append, List.count_replicate]] at h3
      rw [granted_other d tr rfl, consumed_append, show consumed d [Ev.issued t m] = 0 from rfl, ← h2]
      simp only
      by_cases hd : d = s.calls
      · subst hd
        simp only [if_true, beq_self_eq_true] at h3 ⊢; omega
      · rw [if_neg hd, if_neg hd]
        rw [if_neg (by simpa using Ne.symm hd)] at h3
        omega
    · have h2 := hi.sum
      have h3 := sumOn_set (f := Node.n) (b := x.wake m s.calls) hx
      rw [show (x.wake m s.calls).n = x.n + m from rfl] at h3
      rw [allGranted_append, allConsumed_append, show allGranted [Ev.issued t m] = 0 from rfl,
        show allConsumed [Ev.issued t m] = 0 from rfl]
      simp only; omega

/-! ## All waiters together -/

theorem sumOn_elim {α : Type} (f : α → Nat) (l : List α) :
    sumOn f l = sumOn (fun i => (l[i]?).elim 0 f) (List.range l.length) := by
  have key : ∀ (m : Nat), m ≤ l.length →
      sumOn f (l.take m) = sumOn (fun i => (l[i]?).elim 0 f) (List.range m) := by
    intro m
    induction m with
    | zero => intro _; rfl
    | succ m ih =>
      intro hm
      rw [List.range_succ, sumOn_append, ← ih (by omega), List.take_add_one, sumOn_append]
      have : l[m]? = some l[m] := List.getElem?_eq_getElem (by omega)
      simp [this, sumOn]
  have := key l.length (Nat.le_refl _)
  rwa [List.take_length] at this

theorem sumOn_zero {α : Type} {f : α → Nat} {l : List α} (h : ∀ a ∈ l, f a = 0) : sumOn f l = 0 := by
  induction l with
  | nil => rfl
  | cons a l ih =>
    simp only [sumOn, h a (List.mem_cons_self ..), ih (fun b hb => h b (List.mem_cons_of_mem _ hb))]

theorem sumOn_congr {α : Type} {f g : α → Nat} {l : List α} (h : ∀ a, f a = g a) : sumOn f l = sumOn g l := by
  induction l with
  | nil => rfl
  | cons a l ih => simp only [sumOn, h, ih]

theorem sumOn_add {α : Type} {f g : α → Nat} {l : List α} : sumOn (fun a => f a + g a) l = sumOn f l + sumOn g l := by
  induction l with
  | nil => rfl
  | cons a l ih => simp only [sumOn, ih]; omega

theorem sum_indicator (L p : Nat) (h : p < L) : sumOn (fun q => b2n (p == q)) (List.range L) = 1 := by
  induction L with
  | zero => omega
  | succ L ih =>
    rw [List.range_succ, sumOn_append]
    by_cases hp : p < L
    · rw [ih hp]
      have : (p == L) = false := beq_eq_false_iff_ne.mpr (by omega)
      simp [sumOn, this]
    · have hpl : p = L := by omega
      subst hpl
      rw [sumOn_zero (by intro a ha; have := List.mem_range.mp ha; have : (p == a) = false := beq_eq_false_iff_ne.mpr (by omega); simp [this])]
      simp [sumOn]

theorem waiting_reg (pc : PC) : (∃ q, ∀ p, pc.reg p = (q == p) ∧ pc.waiting = true) ∨ (pc.waiting = false ∧ ∀ p, pc.reg p = false) := by
  cases pc <;> first
    | exact .inr ⟨rfl, fun _ => rfl⟩
    | exact .inl ⟨_, fun _ => ⟨rfl, rfl⟩⟩

theorem sum_reg (L : Nat) (ths : List PC) (h : ∀ pc ∈ ths, ∀ q, pc.reg q = true → q < L) :
    sumOn (fun q => ths.countP (PC.reg q)) (List.range L) = ths.countP PC.waiting := by
  induction ths with
  | nil => exact sumOn_zero (fun _ _ => rfl)
  | cons pc ths ih =>
    have ih := ih (fun x hx => h x (List.mem_cons_of_mem _ hx))
    have h0 := h pc (List.mem_cons_self ..)
    rw [List.countP_cons, ← ih]
    have he : ∀ q, (pc :: ths).countP (PC.reg q) = ths.countP (PC.reg q) + b2n (pc.reg q) := by
      intro q; rw [List.countP_cons]; cases pc.reg q <;> rfl
    rw [sumOn_congr he, sumOn_add]
    congr 1
    rcases waiting_reg pc with ⟨q, hq⟩ | ⟨h1, h2⟩
    · rw [if_pos (hq 0).2, sumOn_congr (fun p => by rw [(hq p).1])]
      exact sum_indicator L q (h0 q (by rw [(hq q).1]; exact beq_self_eq_true q))
    · rw [h1, sumOn_zero (fun a _ => by rw [h2 a]; rfl)]; rfl

/-- Every waiter is counted in exactly one node. -/
theorem sum_w {s : St} (hc : Counts s) : sumOn Node.w s.nodes = waiting s := by
  rw [sumOn_elim, show waiting s = s.ths.countP PC.waiting from rfl, ← sum_reg s.nodes.length s.ths]
  · exact (sumOn_congr fun q => (hc.reg q)).symm
  · intro pc hpc q hq
    obtain ⟨t, ht, rfl⟩ := List.getElem_of_mem hpc
    obtain ⟨x, hx⟩ := reg_node hc (List.getElem?_eq_getElem ht) hq
    exact lt_of_get hx

theorem sum_free {ns : List Node} (h : ∀ (q : Nat) (x : Node), ns[q]? = some x → x.n ≤ x.w) :
    sumOn Node.free ns + sumOn Node.n ns = sumOn Node.w ns := by
  induction ns with
  | nil => rfl
  | cons x ns ih =>
    have h0 := h 0 x rfl
    have := ih (fun q y hy => h (q + 1) y (by simpa using hy))
    simp only [sumOn, Node.free] at this ⊢
    omega

theorem grants_exec {n : Nat} {tr : List Ev} {s : St} (h : Exec step (init n) tr s) : Grants tr s := by
  have := h.invariant (fun tr s => (Locks s ∧ Counts s) ∧ Stamps tr s ∧ Grants tr s)
    ⟨⟨locks_init n, counts_init n⟩, stamps_init n, grants_init n⟩ (fun _ _ l _ _ hi hs => by
      obtain ⟨t, a⟩ := l
      have hst := step_sound hs
      exact ⟨⟨locks_step hi.1.1 hst, counts_step hi.1.1 hi.1.2 hst⟩, stamps_step hi.1.1 hi.1.2 hi.2.1 hst,
        grants_step hi.1.1 hi.1.2 hi.2.1 hi.2.2 hst⟩)
  exact this.2.2

/-- The total waiter count. -/
theorem total_of {tr : List Ev} {s : St} (hc : Counts s) (hg : Grants tr s) :
    s.total + (allGranted tr - allConsumed tr) = waiting s ∧ allConsumed tr ≤ allGranted tr := by
  have h1 := sum_w hc
  have h2 := sum_free (ns := s.nodes) (fun q x hx => (hc.ok q x hx).le)
  have h3 := hc.total
  have h4 := hg.sum
  omega

/-- The total waiter count, in every state. -/
theorem total_eq {n : Nat} {tr : List Ev} {s : St} (h : Exec step (init n) tr s) :
    s.total + (allGranted tr - allConsumed tr) = waiting s ∧ allConsumed tr ≤ allGranted tr :=
  total_of (counts_exec h).2 (grants_exec h)

end Verif.WinCv
