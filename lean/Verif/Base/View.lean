/-!
# Release/acquire views of one atomic location

A *view* is the set of event identifiers a thread has observed (its happens-before past).  An atomic location keeps
the view published by its newest message.  The rules are those of C++11/C++20 release/acquire synchronisation:

* an acquire read-modify-write (or load) joins the view of the message it reads into the reader's view;
* a release write publishes the writer's view;
* a read-modify-write continues the release sequence of the message it replaces, so the published view is kept;
* a plain relaxed store starts a message that publishes nothing.
-/

namespace Verif

/-- Set of observed event identifiers. -/
abbrev View := List Nat

/-- The C++ memory orders used by the library. -/
inductive Order
  | relaxed | acquire | release | acqRel
  deriving DecidableEq, Repr

def Order.isAcquire : Order → Bool
  | .acquire | .acqRel => true
  | _ => false

def Order.isRelease : Order → Bool
  | .release | .acqRel => true
  | _ => false

/-- An atomic location: newest value and the view its newest message publishes. -/
structure Loc (α : Type) where
  val : α
  msg : View
  deriving DecidableEq, Repr

/-- A read-modify-write with order `o` by a thread with view `tv`, writing `new`.
Returns the location and the thread's new view. -/
def Loc.rmw {α : Type} (l : Loc α) (o : Order) (tv : View) (new : α) : Loc α × View :=
  let tv' := if o.isAcquire then tv ++ l.msg else tv
  let msg' := if o.isRelease then l.msg ++ tv' else l.msg
  ({ val := new, msg := msg' }, tv')

/-- A plain store with order `o` by a thread with view `tv`. -/
def Loc.store {α : Type} (_ : Loc α) (o : Order) (tv : View) (new : α) : Loc α :=
  { val := new, msg := if o.isRelease then tv else [] }

/-- View of a thread after a load with order `o` of the newest message. -/
def Loc.loadView {α : Type} (l : Loc α) (o : Order) (tv : View) : View :=
  if o.isAcquire then tv ++ l.msg else tv

/-! ## Publication along a trace -/

/-- `Published rel work tr id`: some thread did work `id` and afterwards (later in the trace) performed a release
operation.  `rel e = some j` says `e` is a release operation of thread `j`, `work e = some (j, id)` says that `e` is
the work item `id` of thread `j`. -/
def Published {ε : Type} (rel : ε → Option Nat) (work : ε → Option (Nat × Nat)) (tr : List ε) (id : Nat) : Prop :=
  ∃ pre post e j w, tr = pre ++ e :: post ∧ rel e = some j ∧ w ∈ pre ∧ work w = some (j, id)

theorem not_published_nil {ε : Type} {rel : ε → Option Nat} {work : ε → Option (Nat × Nat)} {id : Nat} :
    ¬ Published rel work [] id := by
  rintro ⟨pre, post, e, j, w, h, _⟩
  simp at h

theorem published_snoc {ε : Type} {rel : ε → Option Nat} {work : ε → Option (Nat × Nat)} {tr : List ε} {x : ε}
    {id : Nat} (h : Published rel work (tr ++ [x]) id) :
    Published rel work tr id ∨ ∃ j w, rel x = some j ∧ w ∈ tr ∧ work w = some (j, id) := by
  obtain ⟨pre, post, e, j, w, h, hr, hw, hwk⟩ := h
  rcases List.eq_nil_or_concat post with rfl | ⟨post', y, rfl⟩
  · have := List.append_inj' h rfl
    obtain ⟨h1, h2⟩ := this
    simp only [List.cons.injEq, and_true] at h2
    subst h1; subst h2
    exact Or.inr ⟨j, w, hr, hw, hwk⟩
  · have h' : tr ++ [x] = (pre ++ e :: post') ++ [y] := by simpa using h
    obtain ⟨h1, _⟩ := List.append_inj' h' rfl
    exact Or.inl ⟨pre, post', e, j, w, h1, hr, hw, hwk⟩

/-- A new publication is due to one of the appended events. -/
theorem published_append {ε : Type} {rel : ε → Option Nat} {work : ε → Option (Nat × Nat)} {tr es : List ε}
    {id : Nat} (h : Published rel work (tr ++ es) id) :
    Published rel work tr id ∨ ∃ e ∈ es, ∃ j w, rel e = some j ∧ w ∈ tr ++ es ∧ work w = some (j, id) := by
  obtain ⟨pre, post, e, j, w, h, hr, hw, hwk⟩ := h
  rcases List.append_eq_append_iff.mp h with ⟨c, h1, h2⟩ | ⟨c, h1, h2⟩
  · subst h1
    right
    refine ⟨e, ?_, j, w, hr, ?_, hwk⟩
    · rw [h2]; simp
    · rw [h2]
      rcases List.mem_append.mp hw with h | h
      · simp [h]
      · simp [h]
  · cases c with
    | nil =>
      simp only [List.nil_append] at h2
      right
      refine ⟨e, ?_, j, w, hr, ?_, hwk⟩
      · rw [← h2]; simp
      · rw [h1]; simp [hw]
    | cons x c =>
      simp only [List.cons_append, List.cons.injEq] at h2
      obtain ⟨rfl, h2⟩ := h2
      left
      exact ⟨pre, c, e, j, w, h1, hr, hw, hwk⟩

/-- Steps emit at most one event. -/
theorem published_append_opt {ε : Type} {rel : ε → Option Nat} {work : ε → Option (Nat × Nat)} {tr : List ε}
    {x : Option ε} {id : Nat} (h : Published rel work (tr ++ x.toList) id) :
    Published rel work tr id ∨ ∃ e j w, x = some e ∧ rel e = some j ∧ w ∈ tr ∧ work w = some (j, id) := by
  cases x with
  | none => left; simpa using h
  | some e =>
    rcases published_snoc h with h | ⟨j, w, h1, h2, h3⟩
    · exact Or.inl h
    · exact Or.inr ⟨e, j, w, rfl, h1, h2, h3⟩

end Verif
