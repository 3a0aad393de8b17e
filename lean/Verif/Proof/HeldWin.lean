import Verif.Proof.Alone
import Verif.Spec.Held
import Verif.Proof.WinCondVarTerm
import Verif.Proof.WinCondVarDtor

/-! # Lemmas for C112: the Windows condition variable -/

namespace Verif.WinCv

open Verif.Spec.Alone

namespace Hd

theorem core_inv {ns : List Node} {q f nx : Nat} (h : (core ns)[q]? = some (f, nx)) :
    ∃ x : Node, ns[q]? = some x ∧ x.w - x.n = f ∧ x.next = nx := by
  simp only [core, List.getElem?_map] at h
  cases hx : ns[q]? with
  | none => rw [hx] at h; cases h
  | some x =>
    rw [hx] at h
    obtain ⟨h1, h2⟩ := Prod.mk.inj (Option.some.inj h)
    exact ⟨x, rfl, h1, h2⟩

/-! ## The loops visit every waiter state at most once -/

theorem search_hits {ns : List Node} {e cur k : Nat} (h : SearchIn (core ns) e cur k) :
    ∃ (x : Node) (l : List Nat), ns[cur]? = some x ∧ Hits ns e x.next l ∧ k = l.length + 1 := by
  induction h with
  | last hx =>
    obtain ⟨x, hx, _, hn⟩ := core_inv hx
    exact ⟨x, [], hx, hn ▸ .stop, rfl⟩
  | @next _ _ nx _ hx hne _ ih =>
    obtain ⟨x, hx, _, hn⟩ := core_inv hx
    obtain ⟨y, l, hy, hl, hk⟩ := ih
    refine ⟨x, nx :: l, hx, ?_, by rw [hk, List.length_cons]⟩
    rw [hn]
    exact .go hne hy hl

theorem hits_length {ns : List Node} {e p : Nat} {l : List Nat} (h : Hits ns e p l) (he : e < ns.length) : l.length + 1 ≤ ns.length := by
  have hnd : (e :: l).Nodup := List.nodup_cons.mpr ⟨fun hm => (h.mem hm).1 rfl, h.nodup⟩
  have := hnd.length_le_of_subset (l₂ := List.range ns.length) (fun q hq => List.mem_range.mpr (by
    rcases List.mem_cons.mp hq with rfl | hq
    · exact he
    · obtain ⟨_, y, hy, _⟩ := h.mem hq
      exact lt_of_get hy))
  simpa using this

theorem search_le {ns : List Node} {e cur k : Nat} (h : SearchIn (core ns) e cur k) (he : e < ns.length) : k ≤ ns.length := by
  obtain ⟨x, l, _, hl, rfl⟩ := search_hits h
  exact hits_length hl he

theorem sum_zero {ns : List Node} (h : ∀ (q : Nat) (x : Node), ns[q]? = some x → x.free = 0) : sumOn Node.free ns = 0 := by
  apply Nat.eq_zero_of_not_pos
  intro hp
  obtain ⟨q, x, hx, h0⟩ := sumOn_pos hp
  rw [h q x hx] at h0
  omega

theorem Hits.congr {ns ns' : List Node} {fin p : Nat} {l : List Nat} (h : Hits ns fin p l)
    (hc : ∀ (q : Nat) (x : Node), ns[q]? = some x → ∃ y : Node, ns'[q]? = some y ∧ y.next = x.next) : Hits ns' fin p l := by
  induction h with
  | stop => exact .stop
  | go hp hx _ ih =>
    obtain ⟨y, hy, hn⟩ := hc _ _ hx
    exact .go hp hy (hn ▸ ih)

/-- Nobody waits in the waiter states not in `l`: the loop ends within them. -/
theorem wake_hits {l : List Nat} : ∀ {ns : List Node} {fin cur c : Nat}, Hits ns fin cur l →
    (∀ (q : Nat) (x : Node), ns[q]? = some x → q ∉ l → x.free = 0) → 0 < c → c ≤ sumOn Node.free ns → ∃ k, k ≤ l.length ∧ WakeIn (core ns) cur c k := by
  induction l with
  | nil =>
    intro ns fin cur c _ hz hc hs
    have := sum_zero (fun q x hx => hz q x hx (by simp))
    omega
  | cons p l ih =>
    intro ns fin cur c hh hz hc hs
    cases hh with
    | @go _ x _ hp hx h =>
      by_cases h0 : c - min (x.w - x.n) c = 0
      · exact ⟨1, by simp, .last (core_get hx) h0⟩
      · have hset := sumOn_set (f := Node.free) (b := { x with n := x.n + min (x.w - x.n) c }) hx
        obtain ⟨k, hk, hw⟩ := ih (ns := ns.set p { x with n := x.n + min (x.w - x.n) c }) (fin := fin) (cur := x.next)
          (c := c - min (x.w - x.n) c) (Hits.congr h (set_congr hx rfl))
          (by
            intro q z hz' hq
            rcases get_set_cases hz' with ⟨_, rfl⟩ | ⟨hne, hz'⟩
            · simp only [Node.free]; omega
            · exact hz q z hz' (by simp only [List.mem_cons, not_or]; exact ⟨fun h => hne h.symm, hq⟩))
          (by omega) (by simp only [Node.free] at hset hs ⊢; omega)
        refine ⟨k + 1, by simp only [List.length_cons]; omega, .next (core_get hx) h0 ?_⟩
        rw [core_set] at hw
        simp only at hw
        rw [show x.w - x.n - min (x.w - x.n) c = x.w - (x.n + min (x.w - x.n) c) by omega]
        exact hw

theorem walk_all {ns : List Node} {cur : Nat} {x : Node} {l : List Nat} (hpath : ∀ i j, i < ns.length → j < ns.length → Path ns i j)
    (hx : ns[cur]? = some x) (hl : Hits ns cur x.next l) (q : Nat) (hq : q < ns.length) : q ∈ cur :: l := by
  refine (hpath cur q (lt_of_get hx) hq).closed (P := (· ∈ cur :: l)) (by simp) ?_
  intro p y hp hy
  rcases List.mem_cons.mp hp with rfl | hp
  · rw [hx] at hy; cases hy
    rcases hl.start with ⟨h, _⟩ | ⟨_, h⟩
    · simp [h]
    · exact List.mem_cons_of_mem _ h
  · obtain ⟨_, z, hz, _, _, _, hn⟩ := hl.mem hp
    rw [hy] at hz; cases hz
    rcases hn with hn | hn
    · simp [hn]
    · exact List.mem_cons_of_mem _ hn

theorem wake_le {ns : List Node} {cur c : Nat} (hpath : ∀ i j, i < ns.length → j < ns.length → Path ns i j)
    (hnext : ∀ (q : Nat) (x : Node), ns[q]? = some x → x.next < ns.length) (hcur : cur < ns.length) (hc : 0 < c)
    (hs : c ≤ sumOn Node.free ns) : ∃ k, k ≤ ns.length ∧ WakeIn (core ns) cur c k := by
  obtain ⟨x, hx⟩ : ∃ x, ns[cur]? = some x := ⟨_, List.getElem?_eq_getElem hcur⟩
  obtain ⟨l, hl⟩ := (hpath x.next cur (hnext _ _ hx) hcur).hits
  have hlen := hits_length hl hcur
  by_cases h0 : c - min (x.w - x.n) c = 0
  · exact ⟨1, by omega, .last (core_get hx) h0⟩
  · have hset := sumOn_set (f := Node.free) (b := { x with n := x.n + min (x.w - x.n) c }) hx
    obtain ⟨k, hk, hw⟩ := wake_hits (ns := ns.set cur { x with n := x.n + min (x.w - x.n) c }) (fin := cur) (cur := x.next)
      (c := c - min (x.w - x.n) c) (Hits.congr hl (set_congr hx rfl))
      (by
        intro q z hz hq
        rcases get_set_cases hz with ⟨_, rfl⟩ | ⟨hne, hz⟩
        · simp only [Node.free]; omega
        · rcases List.mem_cons.mp (walk_all hpath hx hl q (lt_of_get hz)) with h | h
          · exact absurd h.symm hne
          · exact absurd h hq)
      (by omega) (by simp only [Node.free] at hset hs ⊢; omega)
    refine ⟨k + 1, by omega, .next (core_get hx) h0 ?_⟩
    rw [core_set] at hw
    simp only at hw
    rw [show x.w - x.n - min (x.w - x.n) c = x.w - (x.n + min (x.w - x.n) c) by omega]
    exact hw

theorem search_start {s : St} (hr : Ring s) {e : Nat} (he : e < s.nodes.length) :
    ∃ k, k ≤ s.nodes.length ∧ SearchIn (core s.nodes) e s.waitSt k := by
  have hne : s.nodes ≠ [] := by intro h0; rw [h0] at he; simp at he
  have hx : s.nodes[s.waitSt]? = some _ := List.getElem?_eq_getElem (hr.ptr hne).2
  obtain ⟨k, hk⟩ := searchIn_exists (hr.path _ e (hr.next _ _ hx) he) s.waitSt _ hx rfl
  exact ⟨k, search_le hk he, hk⟩

theorem wake_start {s : St} (h : Good s) {t c : Nat} (ht : s.ths[t]? = some (.waking c)) :
    ∃ k, k ≤ s.nodes.length ∧ WakeIn (core s.nodes) s.notify c k := by
  obtain ⟨hl, hc, hr⟩ := h
  have h1 := hc.waking t c ht
  have h2 := sumOn_le (f := PC.toWake) ht
  simp only [PC.toWake] at h2
  have h3 := hc.total
  have hne : s.nodes ≠ [] := by
    intro h0; rw [h0] at h3; simp only [sumOn] at h3; omega
  exact wake_le hr.path hr.next (hr.ptr hne).1 h1 (by omega)

/-! ## The actions of the owner -/

variable {goal : St → List Ev → Prop} {t : Nat}

theorem waking_within {m : Nat} (hx : ∀ s, s.ths[t]? = some .nExit → Within step Any t goal m s) :
    ∀ (k : Nat) (s : St) (c : Nat), s.ths[t]? = some (.waking c) → WakeIn (core s.nodes) s.notify c k → Within step Any t goal (k + m) s := by
  intro k
  induction k with
  | zero => intro s c _ hw; have := wakeIn_pos hw; omega
  | succ k ih =>
    intro s c ht hw
    rw [show k + 1 + m = (k + m) + 1 by omega]
    have hx' : ∃ x, s.nodes[s.notify]? = some x := by
      cases hw with
      | last hx => obtain ⟨x, hx, _⟩ := core_inv hx; exact ⟨x, hx⟩
      | next hx => obtain ⟨x, hx, _⟩ := core_inv hx; exact ⟨x, hx⟩
    obtain ⟨x, hnx⟩ := hx'
    refine ⟨⟨.go, ?_⟩, ?_⟩
    · simp only [step, ht, hnx]
      split <;> exact ⟨_, trivial, rfl⟩
    · intro a s' es _ hs
      right
      have hst := step_sound hs
      rcases (wake_step ht hw hst).2 with ⟨_, h2⟩ | ⟨c', h2, h3⟩
      · exact (hx s' h2).mono (by omega)
      · exact ih s' c' h2 h3

/-- What follows the search: the internal mutex is given back, after registration or because of an exception. -/
structure Ends (goal : St → List Ev → Prop) (t m : Nat) : Prop where
  exit : ∀ (s : St) (k : Kind) (q : Nat), s.ths[t]? = some (.wExit k q) → Within step Any t goal m s
  abort : ∀ s, s.ths[t]? = some .wAbort → Within step Any t goal m s

theorem new_within {m : Nat} (h : Ends goal t m) {s : St} {kd : Kind} {e : Nat} (ht : s.ths[t]? = some (.wNew kd e)) (he : e < s.nodes.length) :
    Within step Any t goal (m + 1) s := by
  have hx : s.nodes[e]? = some _ := List.getElem?_eq_getElem he
  refine ⟨⟨.go, _, trivial, by simp only [step, ht, hx]; rfl⟩, ?_⟩
  intro a s' es _ hs
  right
  cases a <;> simp only [step, ht, hx, reduceCtorEq] at hs
  all_goals (obtain ⟨rfl, rfl⟩ := Prod.mk.inj (Option.some.inj hs))
  · exact h.exit _ _ _ (get_set ht)
  · exact h.abort _ (get_set ht)

theorem search_within {m : Nat} (h : Ends goal t m) {kd : Kind} {e : Nat} :
    ∀ (k : Nat) (s : St), s.ths[t]? = some (.wLoop kd e) → e < s.nodes.length → SearchIn (core s.nodes) e s.waitSt k →
      Within step Any t goal (k + (m + 1)) s := by
  intro k
  induction k with
  | zero => intro s _ _ hw; cases hw
  | succ k ih =>
    intro s ht he hw
    rw [show k + 1 + (m + 1) = (k + (m + 1)) + 1 by omega]
    obtain ⟨x, hx⟩ : ∃ x, s.nodes[s.waitSt]? = some x := by
      obtain ⟨x, _, hx, _⟩ := search_hits hw
      exact ⟨x, hx⟩
    refine ⟨⟨.go, ?_⟩, ?_⟩
    · simp only [step, ht, hx]
      (repeat' split) <;> exact ⟨_, trivial, rfl⟩
    · intro a s' es _ hs
      right
      cases a <;> simp only [step, ht, hx, reduceCtorEq] at hs
      repeat' (split at hs)
      all_goals (obtain ⟨rfl, rfl⟩ := Prod.mk.inj (Option.some.inj hs))
      · exact (h.exit _ _ _ (get_set ht)).mono (by omega)
      · refine Within.mono (k := m + 1) ?_ (by omega)
        exact new_within h (get_set ht) he
      · next hne =>
        cases hw with
        | last hx' => rw [core_get hx] at hx'; cases hx'; exact absurd rfl hne
        | next hx' _ hw' =>
          rw [core_get hx] at hx'; cases hx'
          exact ih _ ht he hw'

theorem init_within {m : Nat} (h : Ends goal t m) {s : St} (hr : Ring s) {kd : Kind} (ht : s.ths[t]? = some (.wInit kd)) :
    Within step Any t goal (s.nodes.length + (m + 1) + 1) s := by
  refine ⟨⟨.go, ?_⟩, ?_⟩
  · simp only [step, ht]
    split <;> exact ⟨_, trivial, rfl⟩
  · intro a s' es _ hs
    right
    cases a <;> simp only [step, ht, reduceCtorEq] at hs
    all_goals split at hs
    all_goals first
      | contradiction
      | (obtain ⟨rfl, rfl⟩ := Prod.mk.inj (Option.some.inj hs))
    · exact (h.exit _ _ _ (get_set ht)).mono (by omega)
    · next hne =>
      obtain ⟨k, hk, hw⟩ := search_start hr (hr.ptr hne).2
      refine Within.mono (k := k + (m + 1)) ?_ (by omega)
      exact search_within h k _ (get_set ht) (hr.ptr hne).2 hw
    · exact (h.abort _ (get_set ht)).mono (by omega)

theorem check_within {m : Nat} (hx : ∀ s, s.ths[t]? = some .nExit → Within step Any t goal m s) {s : St} (hg : Good s) {all : Bool}
    (ht : s.ths[t]? = some (.nCheck all)) : Within step Any t goal (s.nodes.length + m + 1) s := by
  refine ⟨⟨.go, ?_⟩, ?_⟩
  · simp only [step, ht]
    split <;> exact ⟨_, trivial, rfl⟩
  · intro a s' es _ hs
    right
    have hg' := good_step hg (step_sound hs)
    cases a <;> simp only [step, ht, reduceCtorEq] at hs
    split at hs
    all_goals (obtain ⟨rfl, rfl⟩ := Prod.mk.inj (Option.some.inj hs))
    · exact (hx _ (get_set ht)).mono (by omega)
    · obtain ⟨k, hk, hw⟩ := wake_start hg' (get_set ht)
      exact (waking_within hx k _ _ (get_set ht) hw).mono (Nat.add_le_add_right hk m)

/-! ## The internal mutex is given back -/

theorem ends_owner : Ends (fun s' _ => s'.owner = none) t 1 where
  exit s k q ht := by
    refine ⟨⟨.go, _, trivial, by simp only [step, ht]; rfl⟩, fun a s' es _ hs => ?_⟩
    cases a <;> simp only [step, ht, reduceCtorEq] at hs
    obtain ⟨rfl, rfl⟩ := Prod.mk.inj (Option.some.inj hs)
    exact .inl rfl
  abort s ht := by
    refine ⟨⟨.go, _, trivial, by simp only [step, ht]; rfl⟩, fun a s' es _ hs => ?_⟩
    cases a <;> simp only [step, ht, reduceCtorEq] at hs
    obtain ⟨rfl, rfl⟩ := Prod.mk.inj (Option.some.inj hs)
    exact .inl rfl

theorem nExit_owner (s : St) (ht : s.ths[t]? = some .nExit) : Within step Any t (fun s' _ => s'.owner = none) 1 s := by
  refine ⟨⟨.go, _, trivial, by simp only [step, ht]; rfl⟩, fun a s' es _ hs => ?_⟩
  cases a <;> simp only [step, ht, reduceCtorEq] at hs
  obtain ⟨rfl, rfl⟩ := Prod.mk.inj (Option.some.inj hs)
  exact .inl rfl

theorem owner_within {s : St} (hg : Good s) (ho : s.owner = some t) :
    Within step Any t (fun s' _ => s'.owner = none) (s.nodes.length + 3) s := by
  obtain ⟨pc, ht, hh⟩ := hg.locks.owned t ho
  have late : ∀ q, (∃ k, pc = .inTok k q) ∨ pc = .inExpired q ∨ pc = .inFailed q →
      Within step Any t (fun s' _ => s'.owner = none) 1 s := by
    intro q hpc
    obtain ⟨x, hx⟩ : ∃ x, s.nodes[q]? = some x :=
      reg_node hg.counts ht (by rcases hpc with ⟨_, rfl⟩ | rfl | rfl <;> simp [PC.reg])
    rcases hpc with ⟨k, rfl⟩ | rfl | rfl
    all_goals
      refine ⟨⟨.go, ?_⟩, fun a s' es _ hs => ?_⟩
      · simp only [step, ht, hx]
        split <;> exact ⟨_, trivial, rfl⟩
      · cases a <;> simp only [step, ht, hx, reduceCtorEq] at hs
        split at hs
        all_goals (obtain ⟨rfl, rfl⟩ := Prod.mk.inj (Option.some.inj hs))
        all_goals exact .inl rfl
  cases pc with
  | wInit k => exact (init_within ends_owner hg.ring ht).mono (by omega)
  | wLoop k e =>
    obtain ⟨j, hj, hw⟩ := search_start hg.ring (hg.ring.loop t k e ht)
    exact (search_within ends_owner j s ht (hg.ring.loop t k e ht) hw).mono (by omega)
  | wNew k e => exact (new_within ends_owner ht (hg.ring.new t k e ht)).mono (by omega)
  | wExit k q => exact (ends_owner.exit s k q ht).mono (by omega)
  | wAbort => exact (ends_owner.abort s ht).mono (by omega)
  | inTok k q => exact (late q (.inl ⟨k, rfl⟩)).mono (by omega)
  | inExpired q => exact (late q (.inr (.inl rfl))).mono (by omega)
  | inFailed q => exact (late q (.inr (.inr rfl))).mono (by omega)
  | nCheck all => exact (check_within nExit_owner hg ht).mono (by omega)
  | waking c =>
    obtain ⟨j, hj, hw⟩ := wake_start hg ht
    exact (waking_within nExit_owner j s c ht hw).mono (by omega)
  | nExit => exact (nExit_owner s ht).mono (by omega)
  | _ => cases hh

/-! ## Notifications -/

theorem nExit_notify (s : St) (ht : s.ths[t]? = some .nExit) : Within step Any t (fun _ es => NotifyEnds t es) 1 s := by
  refine ⟨⟨.go, _, trivial, by simp only [step, ht]; rfl⟩, fun a s' es _ hs => ?_⟩
  cases a <;> simp only [step, ht, reduceCtorEq] at hs
  obtain ⟨rfl, rfl⟩ := Prod.mk.inj (Option.some.inj hs)
  exact .inl List.mem_cons_self

def inNotify : PC → Bool
  | .nLoad _ | .nEnter _ | .nCheck _ | .waking _ | .nExit => true
  | _ => false

theorem nEnter_within {s : St} (hg : Good s) {all : Bool} (ht : s.ths[t]? = some (.nEnter all)) (ho : s.owner = none) :
    Within step Any t (fun _ es => NotifyEnds t es) (s.nodes.length + 3) s := by
  refine ⟨⟨.go, _, trivial, by simp only [step, ht, ho, if_true]; rfl⟩, fun a s' es _ hs => ?_⟩
  have hg' := good_step hg (step_sound hs)
  cases a <;> simp only [step, ht, ho, if_true, reduceCtorEq] at hs
  obtain ⟨rfl, rfl⟩ := Prod.mk.inj (Option.some.inj hs)
  exact .inr (check_within nExit_notify hg' (get_set ht))

theorem notify_within {s : St} (hg : Good s) {pc : PC} (ht : s.ths[t]? = some pc) (hn : inNotify pc = true)
    (ho : s.owner = none ∨ s.owner = some t) : Within step Any t (fun _ es => NotifyEnds t es) (s.nodes.length + 4) s := by
  have free : pc.holds = false → s.owner = none := by
    intro hh
    rcases ho with ho | ho
    · exact ho
    · obtain ⟨pc', ht', hh'⟩ := hg.locks.owned t ho
      rw [ht] at ht'; cases ht'
      rw [hh] at hh'; cases hh'
  cases pc with
  | nLoad all =>
    refine ⟨⟨.go, ?_⟩, fun a s' es _ hs => ?_⟩
    · simp only [step, ht]
      split <;> exact ⟨_, trivial, rfl⟩
    · have hg' := good_step hg (step_sound hs)
      cases a <;> simp only [step, ht, reduceCtorEq] at hs
      split at hs
      all_goals (obtain ⟨rfl, rfl⟩ := Prod.mk.inj (Option.some.inj hs))
      · exact .inr (nEnter_within hg' (get_set ht) (free rfl))
      · exact .inl List.mem_cons_self
  | nEnter all => exact (nEnter_within hg ht (free rfl)).mono (by omega)
  | nCheck all => exact (check_within nExit_notify hg ht).mono (by omega)
  | waking c =>
    obtain ⟨j, hj, hw⟩ := wake_start hg ht
    exact (waking_within nExit_notify j s c ht hw).mono (by omega)
  | nExit => exact (nExit_notify s ht).mono (by omega)
  | _ => cases hn

/-! ## Waits -/

/-- Where the part of a wait that depends on nobody else ends. -/
def Stops (t : Nat) (s' : St) (es : List Ev) : Prop := WaitEnds t es ∨ Sleeps t s' ∨ NeedsUser t s'

theorem unlock_within {s : St} {k : Kind} {q : Nat} (ht : s.ths[t]? = some (.wUnlock k q)) : Within step Any t (Stops t) 1 s := by
  refine ⟨⟨.go, _, trivial, by simp only [step, ht]; rfl⟩, fun a s' es _ hs => ?_⟩
  cases a <;> simp only [step, ht, reduceCtorEq] at hs
  obtain ⟨rfl, rfl⟩ := Prod.mk.inj (Option.some.inj hs)
  exact .inl (.inr (.inl ⟨_, _, get_set ht⟩))

theorem ends_wait : Ends (Stops t) t 2 where
  exit s k q ht := by
    refine ⟨⟨.go, _, trivial, by simp only [step, ht]; rfl⟩, fun a s' es _ hs => ?_⟩
    cases a <;> simp only [step, ht, reduceCtorEq] at hs
    obtain ⟨rfl, rfl⟩ := Prod.mk.inj (Option.some.inj hs)
    exact .inr (unlock_within (get_set ht))
  abort s ht := by
    refine ⟨⟨.go, _, trivial, by simp only [step, ht]; rfl⟩, fun a s' es _ hs => ?_⟩
    cases a <;> simp only [step, ht, reduceCtorEq] at hs
    obtain ⟨rfl, rfl⟩ := Prod.mk.inj (Option.some.inj hs)
    exact .inl (.inl ⟨_, List.mem_cons_self⟩)

theorem relock_within {s : St} {r : Result} (ht : s.ths[t]? = some (.relock r)) (hu : s.user = none) : Within step Any t (Stops t) 1 s := by
  refine ⟨⟨.go, _, trivial, by simp only [step, ht, hu, if_true]; rfl⟩, fun a s' es _ hs => ?_⟩
  cases a <;> simp only [step, ht, hu, if_true, reduceCtorEq] at hs
  obtain ⟨rfl, rfl⟩ := Prod.mk.inj (Option.some.inj hs)
  exact .inl (.inl ⟨_, List.mem_cons_self⟩)

theorem late_within {s : St} (hg : Good s) {pc : PC} (ht : s.ths[t]? = some pc) (q : Nat)
    (hpc : (∃ k, pc = .inTok k q) ∨ pc = .inExpired q ∨ pc = .inFailed q) : Within step Any t (Stops t) 2 s := by
  obtain ⟨x, hx⟩ : ∃ x, s.nodes[q]? = some x :=
    reg_node hg.counts ht (by rcases hpc with ⟨_, rfl⟩ | rfl | rfl <;> simp [PC.reg])
  have relock : ∀ (s' : St) (es : List Ev) (r : Result), s'.ths[t]? = some (.relock r) → Stops t s' es ∨ Within step Any t (Stops t) 1 s' := by
    intro s' es r h
    by_cases hu : s'.user = none
    · exact .inr (relock_within h hu)
    · exact .inl (.inr (.inr ⟨⟨r, h⟩, hu⟩))
  rcases hpc with ⟨k, rfl⟩ | rfl | rfl
  all_goals
    refine ⟨⟨.go, ?_⟩, fun a s' es _ hs => ?_⟩
    · simp only [step, ht, hx]
      split <;> exact ⟨_, trivial, rfl⟩
    · cases a <;> simp only [step, ht, hx, reduceCtorEq] at hs
      split at hs
      all_goals (obtain ⟨rfl, rfl⟩ := Prod.mk.inj (Option.some.inj hs))
      all_goals first
        | exact relock _ _ _ (get_set ht)
        | exact .inl (.inr (.inl ⟨_, _, get_set ht⟩))

theorem gate_within {s : St} (hg : Good s) {pc : PC} (ht : s.ths[t]? = some pc) (ho : s.owner = none) (q : Nat)
    (hpc : (∃ k, pc = .gotTok k q) ∨ pc = .expired q ∨ pc = .failed q) : Within step Any t (Stops t) 3 s := by
  rcases hpc with ⟨k, rfl⟩ | rfl | rfl
  all_goals
    refine ⟨⟨.go, _, trivial, by simp only [step, ht, ho, if_true]; rfl⟩, fun a s' es _ hs => ?_⟩
    have hg' := good_step hg (step_sound hs)
    cases a <;> simp only [step, ht, ho, if_true, reduceCtorEq] at hs
    obtain ⟨rfl, rfl⟩ := Prod.mk.inj (Option.some.inj hs)
  · exact .inr (late_within hg' (get_set ht) q (.inl ⟨_, rfl⟩))
  · exact .inr (late_within hg' (get_set ht) q (.inr (.inl rfl)))
  · exact .inr (late_within hg' (get_set ht) q (.inr (.inr rfl)))

theorem enter_within {s : St} (hg : Good s) {k : Kind} (ht : s.ths[t]? = some (.wEnter k)) (ho : s.owner = none) :
    Within step Any t (Stops t) (s.nodes.length + 5) s := by
  refine ⟨⟨.go, _, trivial, by simp only [step, ht, ho, if_true]; rfl⟩, fun a s' es _ hs => ?_⟩
  have hg' := good_step hg (step_sound hs)
  cases a <;> simp only [step, ht, ho, if_true, reduceCtorEq] at hs
  obtain ⟨rfl, rfl⟩ := Prod.mk.inj (Option.some.inj hs)
  exact .inr (init_within ends_wait hg'.ring (get_set ht))

/-- In a wait, but not in the wait of the system. -/
def inWait : PC → Bool
  | .idle | .blocked _ _ | .nLoad _ | .nEnter _ | .nCheck _ | .waking _ | .nExit => false
  | _ => true

theorem wait_within {s : St} (hg : Good s) {pc : PC} (ht : s.ths[t]? = some pc) (hn : inWait pc = true)
    (hu : ∀ r, pc = .relock r → s.user = none) (ho : s.owner = none ∨ s.owner = some t) :
    Within step Any t (Stops t) (s.nodes.length + 6) s := by
  have free : pc.holds = false → s.owner = none := by
    intro hh
    rcases ho with ho | ho
    · exact ho
    · obtain ⟨pc', ht', hh'⟩ := hg.locks.owned t ho
      rw [ht] at ht'; cases ht'
      rw [hh] at hh'; cases hh'
  cases pc with
  | wTimer =>
    refine ⟨⟨.go, _, trivial, by simp only [step, ht]; rfl⟩, fun a s' es _ hs => ?_⟩
    have hg' := good_step hg (step_sound hs)
    cases a <;> simp only [step, ht, reduceCtorEq] at hs
    all_goals (obtain ⟨rfl, rfl⟩ := Prod.mk.inj (Option.some.inj hs))
    · exact .inr (enter_within hg' (get_set ht) (free rfl))
    · exact .inl (.inl ⟨_, List.mem_cons_self⟩)
  | wEnter k => exact (enter_within hg ht (free rfl)).mono (by omega)
  | wInit k => exact (init_within ends_wait hg.ring ht).mono (by omega)
  | wLoop k e =>
    obtain ⟨j, hj, hw⟩ := search_start hg.ring (hg.ring.loop t k e ht)
    exact (search_within ends_wait j s ht (hg.ring.loop t k e ht) hw).mono (by omega)
  | wNew k e => exact (new_within ends_wait ht (hg.ring.new t k e ht)).mono (by omega)
  | wExit k q => exact (ends_wait.exit s k q ht).mono (by omega)
  | wAbort => exact (ends_wait.abort s ht).mono (by omega)
  | wUnlock k q => exact (unlock_within ht).mono (by omega)
  | gotTok k q => exact (gate_within hg ht (free rfl) q (.inl ⟨k, rfl⟩)).mono (by omega)
  | expired q => exact (gate_within hg ht (free rfl) q (.inr (.inl rfl))).mono (by omega)
  | failed q => exact (gate_within hg ht (free rfl) q (.inr (.inr rfl))).mono (by omega)
  | inTok k q => exact (late_within hg ht q (.inl ⟨k, rfl⟩)).mono (by omega)
  | inExpired q => exact (late_within hg ht q (.inr (.inl rfl))).mono (by omega)
  | inFailed q => exact (late_within hg ht q (.inr (.inr rfl))).mono (by omega)
  | relock r => exact (relock_within ht (hu r rfl)).mono (by omega)
  | _ => cases hn

end Hd

end Verif.WinCv
