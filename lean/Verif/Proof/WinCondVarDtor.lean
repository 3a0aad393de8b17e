import Verif.Proof.WinCondVarRing
import Verif.Model.WinCondVarDtor

/-! # The walk over the ring of waiter states -/

namespace Verif.WinCv

/-- The nodes from `p` on, following `m_next`, up to the first occurrence of `fin`. -/
inductive Hits (ns : List Node) (fin : Nat) : Nat → List Nat → Prop
  | stop : Hits ns fin fin []
  | go {p x l} (hp : p ≠ fin) (hx : ns[p]? = some x) (h : Hits ns fin x.next l) : Hits ns fin p (p :: l)

theorem Path.hits {ns : List Node} {i j : Nat} (h : Path ns i j) : ∃ l, Hits ns j i l := by
  induction h with
  | refl i => exact ⟨[], .stop⟩
  | @next i j x hx _ ih =>
    obtain ⟨l, hl⟩ := ih
    by_cases hij : i = j
    · subst hij; exact ⟨[], .stop⟩
    · exact ⟨i :: l, .go hij hx hl⟩

theorem Hits.unique {ns : List Node} {fin p : Nat} {l l' : List Nat} (h : Hits ns fin p l) (h' : Hits ns fin p l') : l = l' := by
  induction h generalizing l' with
  | stop => cases h' with
    | stop => rfl
    | go hp => exact absurd rfl hp
  | go hp hx _ ih => cases h' with
    | stop => exact absurd rfl hp
    | go _ hx' h'' =>
      rw [hx] at hx'; cases hx'
      rw [ih h'']

theorem Hits.mem {ns : List Node} {fin p : Nat} {l : List Nat} (h : Hits ns fin p l) {q : Nat} (hq : q ∈ l) :
    q ≠ fin ∧ ∃ x, ns[q]? = some x ∧ ∃ l', Hits ns fin q l' ∧ l'.length ≤ l.length ∧ (x.next = fin ∨ x.next ∈ l) := by
  induction h with
  | stop => cases hq
  | @go p x l hp hx h ih =>
    rcases List.mem_cons.mp hq with rfl | hq
    · refine ⟨hp, x, hx, _, .go hp hx h, Nat.le_refl _, ?_⟩
      cases h with
      | stop => exact .inl rfl
      | go => exact .inr (by simp)
    · obtain ⟨h1, y, hy, l', hl, hle, hn⟩ := ih hq
      refine ⟨h1, y, hy, l', hl, by simp only [List.length_cons]; omega, ?_⟩
      rcases hn with hn | hn
      · exact .inl hn
      · exact .inr (List.mem_cons_of_mem _ hn)

theorem Hits.nodup {ns : List Node} {fin p : Nat} {l : List Nat} (h : Hits ns fin p l) : l.Nodup := by
  induction h with
  | stop => exact List.nodup_nil
  | @go p x l hp hx h ih =>
    refine List.nodup_cons.mpr ⟨fun hm => ?_, ih⟩
    obtain ⟨_, _, _, l', hl, hle, _⟩ := h.mem hm
    have := hl.unique (.go hp hx h)
    rw [this, List.length_cons] at hle
    omega

theorem Hits.start {ns : List Node} {fin p : Nat} {l : List Nat} (h : Hits ns fin p l) : (p = fin ∧ l = []) ∨ (p ≠ fin ∧ p ∈ l) := by
  cases h with
  | stop => exact .inl ⟨rfl, rfl⟩
  | go hp => exact .inr ⟨hp, by simp⟩

/-- A set that contains `i` and is closed under `m_next` contains everything that can be reached. -/
theorem Path.closed {ns : List Node} {i j : Nat} {P : Nat → Prop} (h : Path ns i j) (hi : P i)
    (hc : ∀ q x, P q → ns[q]? = some x → P x.next) : P j := by
  induction h with
  | refl => exact hi
  | next hx _ ih => exact ih (hc _ _ hi hx)

theorem freeLoop_hits {ns : List Node} {fin p : Nat} {l : List Nat} (h : Hits ns fin p l) (hne : p ≠ fin) :
    ∀ (k : Nat) (freed : List Nat), l.length ≤ k → (∀ q ∈ l, q ∉ freed) → freeLoop ns fin k p freed = .done (freed ++ l) := by
  induction h with
  | stop => exact absurd rfl hne
  | @go p x l hp hx h ih =>
    intro k freed hk hd
    have hnd := (Hits.go hp hx h).nodup
    cases k with
    | zero => simp at hk
    | succ k =>
      simp only [freeLoop, hx]
      rw [if_neg (hd p (by simp))]
      split
      next he =>
        cases h with
        | stop => rfl
        | go hp' => exact absurd he hp'
      next he =>
        rw [ih he k (freed ++ [p]) (by simp at hk; omega)]
        · simp
        · intro q hq
          simp only [List.mem_append, List.mem_singleton, not_or]
          refine ⟨hd q (List.mem_cons_of_mem _ hq), ?_⟩
          rintro rfl
          exact (List.nodup_cons.mp hnd).1 hq

/-- The loop deletes every node exactly once. -/
theorem destroy_ring {s : St} (hr : Ring s) :
    ∃ l, (∀ k, s.nodes.length ≤ k → destroy s k = .done l) ∧ l.Nodup ∧ ∀ q, q ∈ l ↔ q < s.nodes.length := by
  by_cases h0 : s.nodes = []
  · exact ⟨[], fun k _ => by simp [destroy, h0], List.nodup_nil, by simp [h0]⟩
  obtain ⟨hn, _⟩ := hr.ptr h0
  obtain ⟨x, hx⟩ : ∃ x, s.nodes[s.notify]? = some x := ⟨_, List.getElem?_eq_getElem hn⟩
  obtain ⟨l, hl⟩ := (hr.path x.next s.notify (hr.next _ _ hx) hn).hits
  have hnd : (s.notify :: l).Nodup := List.nodup_cons.mpr ⟨fun h => (hl.mem h).1 rfl, hl.nodup⟩
  have hlt : ∀ q ∈ s.notify :: l, q < s.nodes.length := by
    intro q hq
    rcases List.mem_cons.mp hq with rfl | hq
    · exact hn
    · obtain ⟨_, y, hy, _⟩ := hl.mem hq
      exact lt_of_get hy
  have hall : ∀ q, q < s.nodes.length → q ∈ s.notify :: l := by
    intro q hq
    refine (hr.path s.notify q hn hq).closed (P := (· ∈ s.notify :: l)) (by simp) ?_
    intro p y hp hy
    rcases List.mem_cons.mp hp with rfl | hp
    · rw [hx] at hy; cases hy
      rcases hl.start with ⟨h, _⟩ | ⟨_, h⟩
      · simp [h]
      · exact List.mem_cons_of_mem _ h
    · obtain ⟨_, z, hz, _, _, _, hn⟩ := hl.mem hp
      rw [hy] at hz; cases hz
      rcases hn with hn | hn
      · simp [hn]
      · exact List.mem_cons_of_mem _ hn
  have hlen : (s.notify :: l).length ≤ s.nodes.length := by
    have := hnd.length_le_of_subset (l₂ := List.range s.nodes.length) (fun q hq => List.mem_range.mpr (hlt q hq))
    simpa using this
  refine ⟨s.notify :: l, fun k hk => ?_, hnd, fun q => ⟨hlt q, hall q⟩⟩
  simp only [destroy, if_neg h0]
  cases k with
  | zero => have := List.length_pos_iff.mpr h0; omega
  | succ k =>
    simp only [freeLoop, hx, List.not_mem_nil, if_false, List.nil_append]
    split
    next he =>
      rcases hl.start with ⟨_, rfl⟩ | ⟨h, _⟩
      · rfl
      · exact absurd he h
    next he =>
      rw [freeLoop_hits hl he k [s.notify] (by simp only [List.length_cons] at hlen; omega)]
      · rfl
      · intro q hq hm
        exact (hl.mem hq).1 (List.mem_singleton.mp hm)

end Verif.WinCv
