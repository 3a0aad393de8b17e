import Verif.Proof.WinCondVarInv

/-! # The ring of waiter states; the loops over it end -/

namespace Verif.WinCv

/-- Following `m_next` from `i` leads to `j`. -/
inductive Path (ns : List Node) : Nat → Nat → Prop
  | refl (i) : Path ns i i
  | next {i j x} (hx : ns[i]? = some x) (h : Path ns x.next j) : Path ns i j

theorem Path.trans {ns : List Node} {i j k : Nat} (h : Path ns i j) (h' : Path ns j k) : Path ns i k := by
  induction h with
  | refl => exact h'
  | next hx _ ih => exact .next hx (ih h')

theorem Path.congr {ns ns' : List Node} {i j : Nat} (h : Path ns i j)
    (hc : ∀ (q : Nat) (x : Node), ns[q]? = some x → ∃ y, ns'[q]? = some y ∧ y.next = x.next) : Path ns' i j := by
  induction h with
  | refl => exact .refl _
  | @next i j x hx _ ih =>
    obtain ⟨y, hy, he⟩ := hc i x hx
    exact .next hy (he ▸ ih)

theorem set_congr {ns : List Node} {q : Nat} {x y : Node} (hx : ns[q]? = some x) (he : y.next = x.next) :
    ∀ (p : Nat) (z : Node), ns[p]? = some z → ∃ y', (ns.set q y)[p]? = some y' ∧ y'.next = z.next := by
  intro p z hz
  by_cases hpq : q = p
  · subst hpq
    rw [hx] at hz; cases hz
    exact ⟨y, get_set_self hx, he⟩
  · exact ⟨z, by rw [get_set_ne hpq]; exact hz, rfl⟩

structure Ring (s : St) : Prop where
  next : ∀ (q : Nat) (x : Node), s.nodes[q]? = some x → x.next < s.nodes.length
  path : ∀ i j, i < s.nodes.length → j < s.nodes.length → Path s.nodes i j
  ptr : s.nodes ≠ [] → s.notify < s.nodes.length ∧ s.waitSt < s.nodes.length
  loop : ∀ (t : Nat) (k : Kind) (e : Nat), s.ths[t]? = some (.wLoop k e) → e < s.nodes.length
  new : ∀ (t : Nat) (k : Kind) (e : Nat), s.ths[t]? = some (.wNew k e) → e < s.nodes.length

theorem ring_init (n : Nat) : Ring (init n) where
  next q x h := by simp [init] at h
  path i j h := by simp [init] at h
  ptr h := absurd rfl h
  loop t k e h := by cases get_replicate h
  new t k e h := by cases get_replicate h

theorem ring_move {s s' : St} (hi : Ring s) {t : Nat} {pc' : PC}
    (hths : s'.ths = s.ths.set t pc') (hnodes : s'.nodes = s.nodes) (hnot : s'.notify = s.notify)
    (hws : s'.waitSt = s.waitSt ∨ s'.waitSt < s.nodes.length)
    (h1 : ∀ k e, pc' = .wLoop k e → e < s.nodes.length) (h2 : ∀ k e, pc' = .wNew k e → e < s.nodes.length) :
    Ring s' where
  next := by rw [hnodes]; exact hi.next
  path := by rw [hnodes]; exact hi.path
  ptr h := by
    rw [hnodes] at h ⊢
    have := hi.ptr h
    rcases hws with hw | hw
    · rw [hnot, hw]; exact this
    · rw [hnot]; exact ⟨this.1, hw⟩
  loop u k e hu := by
    rw [hths] at hu; rw [hnodes]
    rcases get_set_cases hu with ⟨_, hc⟩ | ⟨_, hu⟩
    · exact h1 k e hc.symm
    · exact hi.loop u k e hu
  new u k e hu := by
    rw [hths] at hu; rw [hnodes]
    rcases get_set_cases hu with ⟨_, hc⟩ | ⟨_, hu⟩
    · exact h2 k e hc.symm
    · exact hi.new u k e hu

theorem ring_node {s s' : St} (hi : Ring s) {t : Nat} {pc' : PC} {q : Nat} {x y : Node}
    (hx : s.nodes[q]? = some x) (hy : y.next = x.next)
    (hths : s'.ths = s.ths.set t pc') (hnodes : s'.nodes = s.nodes.set q y)
    (hnot : s'.notify = s.notify ∨ s'.notify < s.nodes.length) (hws : s'.waitSt = s.waitSt)
    (h1 : ∀ k e, pc' ≠ .wLoop k e) (h2 : ∀ k e, pc' ≠ .wNew k e) : Ring s' where
  next p z hz := by
    rw [hnodes] at hz ⊢
    rw [List.length_set]
    rcases get_set_cases hz with ⟨rfl, rfl⟩ | ⟨_, hz⟩
    · rw [hy]; exact hi.next _ _ hx
    · exact hi.next p z hz
  path i j h h' := by
    rw [hnodes] at h h' ⊢
    rw [List.length_set] at h h'
    exact (hi.path i j h h').congr (set_congr hx hy)
  ptr h := by
    have h0 : s.nodes ≠ [] := by intro h; rw [h] at hx; simp at hx
    have := hi.ptr h0
    rw [hnodes, List.length_set, hws]
    rcases hnot with hw | hw
    · rw [hw]; exact this
    · exact ⟨hw, this.2⟩
  loop u k e hu := by
    rw [hths] at hu; rw [hnodes, List.length_set]
    rcases get_set_cases hu with ⟨_, hc⟩ | ⟨_, hu⟩
    · exact absurd hc.symm (h1 k e)
    · exact hi.loop u k e hu
  new u k e hu := by
    rw [hths] at hu; rw [hnodes, List.length_set]
    rcases get_set_cases hu with ⟨_, hc⟩ | ⟨_, hu⟩
    · exact absurd hc.symm (h2 k e)
    · exact hi.new u k e hu

/-- The new node is put behind node `e`. -/
def insertNode (ns : List Node) (e : Nat) (x : Node) : List Node :=
  ns.set e { x with next := ns.length } ++ [⟨1, 0, 0, x.next, []⟩]

theorem lt_of_get {α : Type} {l : List α} {i : Nat} {a : α} (h : l[i]? = some a) : i < l.length :=
  (List.getElem?_eq_some_iff.mp h).1

theorem ring_step {s s' : St} {t : Nat} {es : List Ev} (hi : Ring s) (h : Step s t s' es) : Ring s' := by
  cases h with
  | userLock h hu => exact ⟨hi.next, hi.path, hi.ptr, hi.loop, hi.new⟩
  | userUnlock h hu => exact ⟨hi.next, hi.path, hi.ptr, hi.loop, hi.new⟩
  | @goto pc pc' es h hg =>
    refine ring_move hi (t := t) (pc' := pc') rfl rfl rfl (.inl rfl) ?_ ?_
    · cases hg with
      | search k hn => intro k e hc; cases hc; exact (hi.ptr hn).2
      | _ => intro k e hc; cases hc
    · cases hg <;> intro k e hc <;> cases hc
  | @enter pc pc' h hg ho =>
    refine ring_move hi (t := t) (pc' := pc') rfl rfl rfl (.inl rfl) ?_ ?_
      <;> cases hg <;> intro k e hc <;> cases hc
  | @exit pc pc' es h hg =>
    refine ring_move hi (t := t) (pc' := pc') rfl rfl rfl (.inl rfl) ?_ ?_
      <;> cases hg <;> intro k e hc <;> cases hc
  | @first k h hn =>
    refine ⟨?_, ?_, fun _ => ⟨by simp, by simp⟩, ?_, ?_⟩
    · intro q x hx
      cases q with
      | zero => simp at hx; subst hx; simp
      | succ q => simp at hx
    · intro i j h1 h2
      simp at h1 h2; subst h1; subst h2; exact .refl 0
    · intro u k' e hu
      rcases get_set_cases hu with ⟨_, hc⟩ | ⟨_, hu⟩
      · cases hc
      · have := hi.loop u k' e hu; rw [hn] at this; simp at this
    · intro u k' e hu
      rcases get_set_cases hu with ⟨_, hc⟩ | ⟨_, hu⟩
      · cases hc
      · have := hi.new u k' e hu; rw [hn] at this; simp at this
  | @join k e x h hx hn hw =>
    exact ring_node hi (t := t) (pc' := .wExit k s.waitSt) (y := { x with w := x.w + 1 }) hx rfl rfl rfl (.inl rfl) rfl
      (by intro k e hc; cases hc) (by intro k e hc; cases hc)
  | @advance k e x h hx hn he =>
    exact ⟨hi.next, hi.path, fun h0 => ⟨(hi.ptr h0).1, hi.next _ _ hx⟩, hi.loop, hi.new⟩
  | @around k e x h hx hn he =>
    refine ring_move hi (t := t) (pc' := .wNew k e) rfl rfl rfl (.inr (hi.next _ _ hx)) ?_ ?_
    · intro k e hc; cases hc
    · intro k' e' hc; cases hc; exact hi.loop t k e h
  | @create k e x h hx =>
    have he := lt_of_get hx
    have hx' := hi.next _ _ hx
    have hlen : (insertNode s.nodes e x).length =
      s.nodes.length + 1 := by simp [insertNode]
    have hnew : (insertNode s.nodes e x)[s.nodes.length]? =
        some ⟨1, 0, 0, x.next, []⟩ := by simp [insertNode]
    have hend : (insertNode s.nodes e x)[e]? =
        some { x with next := s.nodes.length } := by
      rw [insertNode, List.getElem?_append_left (by simpa using he)]; exact get_set_self hx
    have hold : ∀ (q : Nat) (z : Node), q ≠ e → s.nodes[q]? = some z →
        (insertNode s.nodes e x)[q]? = some z := by
      intro q z hq hz
      rw [insertNode, List.getElem?_append_left (by simpa using lt_of_get hz), get_set_ne (Ne.symm hq)]; exact hz
    have hp : ∀ i j, Path s.nodes i j →
        Path (insertNode s.nodes e x) i j := by
      intro i j h
      induction h with
      | refl => exact .refl _
      | @next i j y hy _ ih =>
        by_cases hie : i = e
        · subst hie
          rw [hx] at hy; cases hy
          exact .next hend (.next hnew ih)
        · exact .next (hold i y hie hy) ih
    refine ⟨?_, ?_, ?_, ?_, ?_⟩
    · intro q z hz
      change (insertNode s.nodes e x)[q]? = some z at hz
      show z.next < (insertNode s.nodes e x).length
      rw [hlen]
      by_cases hq : q < s.nodes.length
      · rw [insertNode, List.getElem?_append_left (by simpa using hq)] at hz
        rcases get_set_cases hz with ⟨rfl, rfl⟩ | ⟨_, hz⟩
        · exact Nat.lt_succ_self _
        · have := hi.next q z hz; omega
      · have : q = s.nodes.length := by have := lt_of_get hz; rw [hlen] at this; omega
        subst this
        rw [hnew] at hz; cases hz
        show x.next < _
        omega
    · intro i j h1 h2
      change i < (insertNode s.nodes e x).length at h1
      change j < (insertNode s.nodes e x).length at h2
      rw [hlen] at h1 h2
      show Path (insertNode s.nodes e x) i j
      have ha : i < s.nodes.length → Path (insertNode s.nodes e x)
          i s.nodes.length := fun hlt =>
        (hp _ _ (hi.path i e hlt he)).trans (.next hend (.refl _))
      have hb : j < s.nodes.length → Path (insertNode s.nodes e x)
          s.nodes.length j := fun hlt => .next hnew (hp _ _ (hi.path _ j hx' hlt))
      by_cases hi1 : i < s.nodes.length
      · by_cases hj1 : j < s.nodes.length
        · exact hp _ _ (hi.path i j hi1 hj1)
        · have : j = s.nodes.length := by omega
          subst this; exact ha hi1
      · have : i = s.nodes.length := by omega
        subst this
        by_cases hj1 : j < s.nodes.length
        · exact hb hj1
        · have : j = s.nodes.length := by omega
          subst this; exact .refl _
    · intro _
      have h0 : s.nodes ≠ [] := by intro h; rw [h] at hx; simp at hx
      have := (hi.ptr h0).1
      show s.notify < (insertNode s.nodes e x).length ∧ s.nodes.length < (insertNode s.nodes e x).length
      rw [hlen]; omega
    · intro u k' e' hu
      show e' < (insertNode s.nodes e x).length
      rw [hlen]
      rcases get_set_cases hu with ⟨_, hc⟩ | ⟨_, hu⟩
      · cases hc
      · have := hi.loop u k' e' hu; omega
    · intro u k' e' hu
      show e' < (insertNode s.nodes e x).length
      rw [hlen]
      rcases get_set_cases hu with ⟨_, hc⟩ | ⟨_, hu⟩
      · cases hc
      · have := hi.new u k' e' hu; omega
  | @unlock k q h =>
    exact ring_move hi (t := t) (pc' := .blocked k q) rfl rfl rfl (.inl rfl)
      (by intro k e hc; cases hc) (by intro k e hc; cases hc)
  | @token k q x h hx ht =>
    exact ring_node hi (t := t) (pc' := .gotTok k q) (y := { x with tok := x.tok - 1 }) hx rfl rfl rfl (.inl rfl) rfl
      (by intro k e hc; cases hc) (by intro k e hc; cases hc)
  | @leave pc q r x h hl hx hn =>
    exact ring_node hi (t := t) (pc' := .relock r) (y := x.leave) hx rfl rfl rfl (.inl rfl) rfl
      (by intro k e hc; cases hc) (by intro k e hc; cases hc)
  | @leave0 pc q r x h hl hx hn =>
    exact ring_node hi (t := t) (pc' := .relock r) (y := x.leave) hx rfl rfl rfl (.inl rfl) rfl
      (by intro k e hc; cases hc) (by intro k e hc; cases hc)
  | @relock r h hu =>
    exact ring_move hi (t := t) (pc' := .idle) rfl rfl rfl (.inl rfl)
      (by intro k e hc; cases hc) (by intro k e hc; cases hc)
  | @decide0 all h h0 =>
    exact ring_move hi (t := t) (pc' := .nExit) rfl rfl rfl (.inl rfl)
      (by intro k e hc; cases hc) (by intro k e hc; cases hc)
  | @decide all c h h0 hc =>
    exact ring_move hi (t := t) (pc' := .waking c) rfl rfl rfl (.inl rfl)
      (by intro k e hc; cases hc) (by intro k e hc; cases hc)
  | @wakeLast c x m h hx hm hc =>
    exact ring_node hi (t := t) (pc' := .nExit) (y := x.wake m s.calls) hx rfl rfl rfl (.inl rfl) rfl
      (by intro k e hc; cases hc) (by intro k e hc; cases hc)
  | @wakeNext c x m h hx hm hc =>
    exact ring_node hi (t := t) (pc' := .waking (c - m)) (y := x.wake m s.calls) hx rfl rfl rfl (.inr (hi.next _ _ hx)) rfl
      (by intro k e hc; cases hc) (by intro k e hc; cases hc)

theorem ring_exec {n : Nat} {tr : List Ev} {s : St} (h : Exec step (init n) tr s) : Ring s :=
  h.invariant' Ring (ring_init n) (fun _ l _ _ hi hs => by obtain ⟨t, a⟩ := l; exact ring_step hi (step_sound hs))

/-! ## The notify loop -/

/-- What the notify loop looks at: waiters not notified yet and the next node. -/
def core (ns : List Node) : List (Nat × Nat) := ns.map fun x => (x.w - x.n, x.next)

/-- The loop of `wake_waiters` at node `cur` with `c` threads left to wake ends after exactly `k` iterations. -/
inductive WakeIn : List (Nat × Nat) → Nat → Nat → Nat → Prop
  | last {l cur c f nx} (hx : l[cur]? = some (f, nx)) (hc : c - min f c = 0) : WakeIn l cur c 1
  | next {l cur c f nx k} (hx : l[cur]? = some (f, nx)) (hc : c - min f c ≠ 0)
      (h : WakeIn (l.set cur (f - min f c, nx)) nx (c - min f c) k) : WakeIn l cur c (k + 1)

theorem core_get {ns : List Node} {q : Nat} {x : Node} (h : ns[q]? = some x) :
    (core ns)[q]? = some (x.w - x.n, x.next) := by
  simp [core, h]

theorem core_set {ns : List Node} {q : Nat} (y : Node) :
    core (ns.set q y) = (core ns).set q (y.w - y.n, y.next) := by
  simp [core, List.map_set]

theorem core_set_same {ns : List Node} {q : Nat} {x y : Node} (h : ns[q]? = some x) (h1 : y.w = x.w) (h2 : y.n = x.n)
    (h3 : y.next = x.next) : core (ns.set q y) = core ns := by
  rw [core_set, h1, h2, h3]; exact set_same (core_get h)

theorem wake_zero (x : Node) (call : Nat) : x.wake 0 call = x := by
  have : release x.tok 0 = x.tok := by have := release_cases x.tok 0; omega
  simp [Node.wake, this]

theorem wakeIn_exists (c : Nat) : ∀ (ns : List Node) (cur : Nat),
    (∀ i j, i < ns.length → j < ns.length → Path ns i j) →
    (∀ (q : Nat) (x : Node), ns[q]? = some x → x.next < ns.length) → cur < ns.length → 0 < c → c ≤ sumOn Node.free ns →
    ∃ k, WakeIn (core ns) cur c k := by
  induction c using Nat.strongRecOn with
  | ind c ih =>
  intro ns cur hpath hnext hcur hc hsum
  obtain ⟨j, y, hy, hfree⟩ := sumOn_pos (f := Node.free) (l := ns) (by omega)
  have hp := hpath cur j hcur (lt_of_get hy)
  -- a node that wakes somebody
  have hgood : ∀ (i : Nat) (x : Node), ns[i]? = some x → 0 < x.free → ∃ k, WakeIn (core ns) i c k := by
    intro i x hx hf
    unfold Node.free at hf
    by_cases h0 : c - min (x.w - x.n) c = 0
    · exact ⟨1, .last (core_get hx) h0⟩
    · have hset := sumOn_set (f := Node.free) (b := { x with n := x.n + min (x.w - x.n) c }) hx
      obtain ⟨k, hk⟩ := ih (c - min (x.w - x.n) c) (by omega) (ns.set i { x with n := x.n + min (x.w - x.n) c }) x.next
        (by
          intro a b ha hb
          rw [List.length_set] at ha hb
          exact (hpath a b ha hb).congr (set_congr hx rfl))
        (by
          intro q z hz
          rw [List.length_set]
          rcases get_set_cases hz with ⟨rfl, rfl⟩ | ⟨_, hz⟩
          · exact hnext _ x hx
          · exact hnext q z hz)
        (by rw [List.length_set]; exact hnext _ _ hx) (by omega) (by simp only [Node.free] at hset hsum ⊢; omega)
      refine ⟨k + 1, .next (core_get hx) h0 ?_⟩
      rw [core_set] at hk
      simp only at hk
      rw [show x.w - x.n - min (x.w - x.n) c = x.w - (x.n + min (x.w - x.n) c) by omega]
      exact hk
  induction hp with
  | refl i => exact hgood i y hy hfree
  | @next i j x hx _ ihp =>
    by_cases hf : 0 < x.free
    · exact hgood i x hx hf
    · obtain ⟨k, hk⟩ := ihp (hnext _ _ hx) hy
      have h0 : x.w - x.n = 0 := by unfold Node.free at hf; omega
      refine ⟨k + 1, .next (core_get hx) (by omega) ?_⟩
      rw [set_same (by rw [core_get hx]; congr 2; omega)]
      rw [show c - min (x.w - x.n) c = c by omega]
      exact hk

theorem wakeIn_pos {l : List (Nat × Nat)} {cur c k : Nat} (h : WakeIn l cur c k) : 0 < k := by
  cases h <;> omega

end Verif.WinCv
