import Verif.Proof.WinCondVarRing
import Verif.Spec.WinCondVar

/-! # Which notifications a waiter can consume -/

namespace Verif.WinCv

theorem born_fst (t : Nat) (tr : List Ev) (a : Nat × Nat) :
    (tr.foldl (bornStep t) a).1 = a.1 + decisions tr := by
  induction tr generalizing a with
  | nil => rfl
  | cons e tr ih =>
    rw [List.foldl_cons, ih]
    unfold decisions
    rw [List.countP_cons]
    cases e <;> simp only [bornStep, Ev.isDecided]
    case registered u => split <;> simp
    all_goals simp <;> omega

theorem decisions_append (tr es : List Ev) : decisions (tr ++ es) = decisions tr + decisions es :=
  List.countP_append

theorem born_registered (t : Nat) (tr : List Ev) : born t (tr ++ [.registered t]) = decisions tr := by
  have := born_fst t tr (0, 0)
  simp only [born, List.foldl_append, List.foldl_cons, List.foldl_nil, bornStep, if_true]
  omega

theorem born_keep {t : Nat} (tr : List Ev) {es : List Ev} (h : Ev.registered t ∉ es) : born t (tr ++ es) = born t tr := by
  unfold born
  rw [List.foldl_append]
  generalize tr.foldl (bornStep t) (0, 0) = a
  induction es generalizing a with
  | nil => rfl
  | cons e es ih =>
    rw [List.foldl_cons, ih (fun hm => h (List.mem_cons_of_mem _ hm))]
    cases e <;> simp only [bornStep]
    case registered u =>
      have : u ≠ t := by rintro rfl; exact h (List.mem_cons_self ..)
      rw [if_neg this]

theorem born_le (t : Nat) (tr : List Ev) : born t tr ≤ decisions tr := by
  have key : ∀ a : Nat × Nat, a.2 ≤ a.1 → (tr.foldl (bornStep t) a).2 ≤ (tr.foldl (bornStep t) a).1 := by
    induction tr with
    | nil => exact fun a h => h
    | cons e tr ih =>
      intro a h
      rw [List.foldl_cons]
      apply ih
      cases e <;> simp only [bornStep] <;> try exact h
      · split <;> simp [h]
      · omega
  have h1 := key (0, 0) (Nat.le_refl _)
  rw [born_fst] at h1
  simpa [born] using h1

structure Stamps (tr : List Ev) (s : St) : Prop where
  calls : s.calls = decisions tr
  stamp : ∀ (t q : Nat) (pc : PC) (x : Node), s.ths[t]? = some pc → pc.reg q = true → s.nodes[q]? = some x →
    ∀ u ∈ x.units, born t tr < u
  le : ∀ (q : Nat) (x : Node), s.nodes[q]? = some x → ∀ u ∈ x.units, u ≤ s.calls
  waking : ∀ (t c : Nat), s.ths[t]? = some (.waking c) →
    ∀ (u q : Nat) (pc : PC), s.ths[u]? = some pc → pc.reg q = true → born u tr < s.calls

theorem stamps_init (n : Nat) : Stamps [] (init n) where
  calls := rfl
  stamp t q pc x h hr hx := by simp [init] at hx
  le q x hx := by simp [init] at hx
  waking t c h := by cases get_replicate h

/-- A step after which no thread is registered anew and no unit is added. -/
theorem stamps_keep {tr es : List Ev} {s s' : St} (hi : Stamps tr s) {t : Nat} {pc pc' : PC} (h : s.ths[t]? = some pc)
    (hths : s'.ths = s.ths.set t pc')
    (hcalls : s'.calls = s.calls + decisions es)
    (hnodes : ∀ (q : Nat) (y : Node), s'.nodes[q]? = some y →
      ∃ x, s.nodes[q]? = some x ∧ ∀ u ∈ y.units, u ∈ x.units)
    (hreg : ∀ q, pc'.reg q = true → pc.reg q = true)
    (hes : ∀ u, Ev.registered u ∉ es)
    (hw : ∀ c, pc' = .waking c → decisions es = 1 ∨ ∃ c, pc = .waking c) : Stamps (tr ++ es) s' := by
  have hb : ∀ u, born u (tr ++ es) = born u tr := fun u => born_keep tr (hes u)
  have hold : ∀ (u q : Nat) (x : PC), s'.ths[u]? = some x → x.reg q = true →
      ∃ y : PC, s.ths[u]? = some y ∧ y.reg q = true := by
    intro u q x hu hr
    rw [hths] at hu
    rcases get_set_cases hu with ⟨rfl, rfl⟩ | ⟨_, hu⟩
    · exact ⟨pc, h, hreg q hr⟩
    · exact ⟨x, hu, hr⟩
  refine ⟨?_, ?_, ?_, ?_⟩
  · rw [hcalls, hi.calls, decisions_append]
  · intro u q x y hu hr hy v hv
    obtain ⟨x', hx', hr'⟩ := hold u q x hu hr
    obtain ⟨z, hz, hsub⟩ := hnodes q y hy
    rw [hb]
    exact hi.stamp u q x' z hx' hr' hz v (hsub v hv)
  · intro q y hy v hv
    obtain ⟨z, hz, hsub⟩ := hnodes q y hy
    have := hi.le q z hz v (hsub v hv)
    omega
  · intro v c hv u q x hu hr
    obtain ⟨x', hx', hr'⟩ := hold u q x hu hr
    rw [hb, hcalls]
    rw [hths] at hv
    have hle := born_le u tr
    have hcl := hi.calls
    rcases get_set_cases hv with ⟨_, hc⟩ | ⟨_, hv⟩
    · rcases hw c hc.symm with h1 | ⟨c', h1⟩
      · omega
      · subst h1
        have := hi.waking t c' h u q x' hx' hr'
        omega
    · have := hi.waking v c hv u q x' hx' hr'
      omega

theorem set_units {ns : List Node} {q : Nat} {x y : Node} (hx : ns[q]? = some x) (hu : ∀ u ∈ y.units, u ∈ x.units) :
    ∀ (p : Nat) (z : Node), (ns.set q y)[p]? = some z → ∃ x, ns[p]? = some x ∧ ∀ u ∈ z.units, u ∈ x.units := by
  intro p z hz
  rcases get_set_cases hz with ⟨rfl, rfl⟩ | ⟨_, hz⟩
  · exact ⟨x, hx, hu⟩
  · exact ⟨z, hz, fun u h => h⟩

/-- Only one thread owns the internal mutex. -/
theorem sole {s : St} (hl : Locks s) {t u : Nat} {pc x : PC} (h : s.ths[t]? = some pc) (hp : pc.holds = true)
    (hu : s.ths[u]? = some x) (hx : x.holds = true) : t = u ∧ pc = x := by
  have h1 := hl.own u x hu hx
  rw [hl.own t pc h hp] at h1
  cases h1
  rw [h] at hu; cases hu
  exact ⟨rfl, rfl⟩

/-- A step that registers `t` in node `q` that has no units. -/
theorem stamps_join {tr : List Ev} {s s' : St} (hl : Locks s) (hi : Stamps tr s) {t q : Nat} {pc : PC} {k : Kind}
    (h : s.ths[t]? = some pc) (hp : pc.holds = true) (hpw : ∀ c, pc ≠ .waking c)
    (hths : s'.ths = s.ths.set t (.wExit k q)) (hcalls : s'.calls = s.calls)
    (hq : ∀ y, s'.nodes[q]? = some y → y.units = [])
    (hnodes : ∀ (p : Nat) (y : Node), p ≠ q → s'.nodes[p]? = some y →
      ∃ x, s.nodes[p]? = some x ∧ ∀ u ∈ y.units, u ∈ x.units) : Stamps (tr ++ [.registered t]) s' := by
  have hb : ∀ u, u ≠ t → born u (tr ++ [.registered t]) = born u tr :=
    fun u hu => born_keep tr (by simpa using hu)
  refine ⟨?_, ?_, ?_, ?_⟩
  · rw [hcalls, hi.calls, decisions_append]; rfl
  · intro u p x y hu hr hy v hv
    rw [hths] at hu
    by_cases hpq : p = q
    · subst hpq; rw [hq y hy] at hv; cases hv
    · obtain ⟨z, hz, hsub⟩ := hnodes p y hpq hy
      rcases get_set_cases hu with ⟨_, rfl⟩ | ⟨hne, hu⟩
      · have : q = p := by simpa [PC.reg] using hr
        exact absurd this.symm hpq
      · rw [hb u (Ne.symm hne)]
        exact hi.stamp u p x z hu hr hz v (hsub v hv)
  · intro p y hy v hv
    rw [hcalls]
    by_cases hpq : p = q
    · subst hpq; rw [hq y hy] at hv; cases hv
    · obtain ⟨z, hz, hsub⟩ := hnodes p y hpq hy
      exact hi.le p z hz v (hsub v hv)
  · intro v c hv u p x hu hr
    rw [hths] at hv
    rcases get_set_cases hv with ⟨_, hc⟩ | ⟨_, hv⟩
    · cases hc
    · exact absurd (sole hl h hp hv rfl).2 (hpw c)

theorem stamps_step {tr : List Ev} {s s' : St} {t : Nat} {es : List Ev} (hl : Locks s) (hc : Counts s) (hi : Stamps tr s)
    (h : Step s t s' es) : Stamps (tr ++ es) s' := by
  have same : ∀ (q : Nat) (y : Node), s.nodes[q]? = some y → ∃ x, s.nodes[q]? = some x ∧ ∀ u ∈ y.units, u ∈ x.units :=
    fun q y hy => ⟨y, hy, fun u hu => hu⟩
  cases h with
  | userLock h hu => exact (List.append_nil tr).symm ▸ ⟨hi.calls, hi.stamp, hi.le, hi.waking⟩
  | userUnlock h hu => exact (List.append_nil tr).symm ▸ ⟨hi.calls, hi.stamp, hi.le, hi.waking⟩
  | @goto pc pc' es h hg =>
    refine stamps_keep hi h rfl ?_ same ?_ ?_ ?_
    · cases hg <;> rfl
    · cases hg <;> intro q hq <;> exact hq
    · cases hg <;> intro u hu <;> simp at hu
    · cases hg <;> intro c hc <;> cases hc
  | @enter pc pc' h hg ho =>
    refine stamps_keep hi h rfl rfl same ?_ ?_ ?_
    · cases hg <;> intro q hq <;> exact hq
    · intro u hu; cases hu
    · cases hg <;> intro c hc <;> cases hc
  | @exit pc pc' es h hg =>
    refine stamps_keep hi h rfl ?_ same ?_ ?_ ?_
    · cases hg <;> rfl
    · cases hg <;> intro q hq <;> exact hq
    · cases hg <;> intro u hu <;> simp at hu
    · cases hg <;> intro c hc <;> cases hc
  | @first k h hn =>
    refine stamps_join hl hi (k := k) (q := 0) h rfl (by intro c hc; cases hc) rfl rfl ?_ ?_
    · intro y hy; simp at hy; subst hy; rfl
    · intro p y hp hy
      cases p with
      | zero => exact absurd rfl hp
      | succ p => simp at hy
  | @join k e x h hx hn hw =>
    have hu : x.units = [] := List.eq_nil_of_length_eq_zero ((hc.ok _ _ hx).len.trans hn)
    refine stamps_join hl hi (k := k) (q := s.waitSt) h rfl (by intro c hc; cases hc) rfl rfl ?_ ?_
    · intro y hy
      rw [get_set_self hx] at hy; cases hy; exact hu
    · intro p y hp hy
      rw [get_set_ne (Ne.symm hp)] at hy
      exact same p y hy
  | @advance k e x h hx hn he => exact (List.append_nil tr).symm ▸ ⟨hi.calls, hi.stamp, hi.le, hi.waking⟩
  | @around k e x h hx hn he =>
    exact stamps_keep hi h (pc' := .wNew k e) rfl rfl same (fun q hq => by cases hq) (fun u hu => by cases hu) (fun c hc => by cases hc)
  | @create k e x h hx =>
    refine stamps_join hl hi (k := k) (q := s.nodes.length) h rfl (by intro c hc; cases hc) rfl rfl ?_ ?_
    · intro y hy; simp at hy; subst hy; rfl
    · intro p y hp hy
      have hlt := lt_of_get hy
      simp only [List.length_append, List.length_set, List.length_cons, List.length_nil] at hlt
      have hlt' : p < s.nodes.length := by omega
      simp only at hy
      rw [List.getElem?_append_left (by simpa using hlt')] at hy
      rcases get_set_cases hy with ⟨rfl, rfl⟩ | ⟨_, hz⟩
      · exact ⟨x, hx, fun u hu => hu⟩
      · exact same p y hz
  | @unlock k q h =>
    exact stamps_keep hi h (pc' := .blocked k q) rfl rfl same (fun q hq => hq) (fun u hu => by simp at hu) (fun c hc => by cases hc)
  | @token k q x h hx ht =>
    exact stamps_keep hi h (pc' := .gotTok k q) rfl rfl (set_units hx (fun u hu => hu)) (fun q hq => hq)
      (fun u hu => by cases hu) (fun c hc => by cases hc)
  | @leave pc q r x h hl' hx hn =>
    exact stamps_keep hi h (pc' := .relock r) rfl rfl (set_units hx (fun u hu => List.mem_of_mem_tail hu))
      (fun q hq => by cases hq) (fun u hu => by simp at hu) (fun c hc => by cases hc)
  | @leave0 pc q r x h hl' hx hn =>
    exact stamps_keep hi h (pc' := .relock r) rfl rfl (set_units hx (fun u hu => List.mem_of_mem_tail hu))
      (fun q hq => by cases hq) (fun u hu => by cases hu) (fun c hc => by cases hc)
  | @relock r h hu =>
    exact stamps_keep hi h (pc' := .idle) rfl rfl same (fun q hq => by cases hq) (fun u hu => by simp at hu) (fun c hc => by cases hc)
  | @decide0 all h h0 =>
    exact stamps_keep hi h (pc' := .nExit) rfl rfl same (fun q hq => by cases hq) (fun u hu => by simp at hu) (fun c hc => by cases hc)
  | @decide all c h h0 hcc =>
    exact stamps_keep hi h (pc' := .waking c) rfl rfl same (fun q hq => by cases hq) (fun u hu => by simp at hu)
      (fun c hc => .inl rfl)
  | @wakeLast c x m h hx hm hcc =>
    have hw := hi.waking t c h
    refine ⟨?_, ?_, ?_, ?_⟩
    · rw [hi.calls, decisions_append]; rfl
    · intro u p y z hu hr hz v hv
      rw [born_keep tr (by simp)]
      have hu' : s.ths[u]? = some y := by
        rcases get_set_cases hu with ⟨_, rfl⟩ | ⟨_, hu⟩
        · cases hr
        · exact hu
      rcases get_set_cases hz with ⟨rfl, rfl⟩ | ⟨_, hz⟩
      · rcases List.mem_append.mp hv with hv | hv
        · exact hi.stamp u _ y x hu' hr hx v hv
        · rw [(List.mem_replicate.mp hv).2]; exact hw u _ y hu' hr
      · exact hi.stamp u p y z hu' hr hz v hv
    · intro p z hz v hv
      rcases get_set_cases hz with ⟨rfl, rfl⟩ | ⟨_, hz⟩
      · rcases List.mem_append.mp hv with hv | hv
        · exact hi.le _ x hx v hv
        · rw [(List.mem_replicate.mp hv).2]; exact Nat.le_refl _
      · exact hi.le p z hz v hv
    · intro v c' hv u p y hu hr
      rcases get_set_cases hv with ⟨_, hcc⟩ | ⟨hne, hv⟩
      · cases hcc
      · exact absurd (sole hl h rfl hv rfl).1 hne
  | @wakeNext c x m h hx hm hcc =>
    have hw := hi.waking t c h
    have hold : ∀ (u p : Nat) (y : PC), (s.ths.set t (.waking (c - m)))[u]? = some y → y.reg p = true →
        s.ths[u]? = some y := by
      intro u p y hu hr
      rcases get_set_cases hu with ⟨_, rfl⟩ | ⟨_, hu⟩
      · cases hr
      · exact hu
    refine ⟨?_, ?_, ?_, ?_⟩
    · rw [hi.calls, decisions_append]; rfl
    · intro u p y z hu hr hz v hv
      rw [born_keep tr (by simp)]
      have hu' := hold u p y hu hr
      rcases get_set_cases hz with ⟨rfl, rfl⟩ | ⟨_, hz⟩
      · rcases List.mem_append.mp hv with hv | hv
        · exact hi.stamp u _ y x hu' hr hx v hv
        · rw [(List.mem_replicate.mp hv).2]; exact hw u _ y hu' hr
      · exact hi.stamp u p y z hu' hr hz v hv
    · intro p z hz v hv
      rcases get_set_cases hz with ⟨rfl, rfl⟩ | ⟨_, hz⟩
      · rcases List.mem_append.mp hv with hv | hv
        · exact hi.le _ x hx v hv
        · rw [(List.mem_replicate.mp hv).2]; exact Nat.le_refl _
      · exact hi.le p z hz v hv
    · intro v c' hv u p y hu hr
      rw [born_keep tr (by simp)]
      exact hw u p y (hold u p y hu hr) hr

theorem stamps_exec {n : Nat} {tr : List Ev} {s : St} (h : Exec step (init n) tr s) : Stamps tr s := by
  have := h.invariant (fun tr s => (Locks s ∧ Counts s) ∧ Stamps tr s)
    ⟨⟨locks_init n, counts_init n⟩, stamps_init n⟩ (fun _ _ l _ _ hi hs => by
      obtain ⟨t, a⟩ := l
      have hst := step_sound hs
      exact ⟨⟨locks_step hi.1.1 hst, counts_step hi.1.1 hi.1.2 hst⟩, stamps_step hi.1.1 hi.1.2 hi.2 hst⟩)
  exact this.2

end Verif.WinCv
