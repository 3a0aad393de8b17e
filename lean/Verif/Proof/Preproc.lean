import Verif.Base.Preproc

/-!
# Headers that include what they use

A check on headers that looks at their text only (`Prog.scope`), and the proof that headers that pass it have the same meaning whatever
was included before them: each of them sets only macros of its own and asks only for macros of its own, of the compiler, or of headers
that it has included.
-/

set_option linter.unusedSectionVars false

namespace Verif.Preproc

variable {M F D : Type} [DecidableEq M] [DecidableEq F]

/-- The macros an expression asks for. -/
def Num.reads : Num M → List M
  | .mac m => [m]
  | .lit _ => []
  | .add a b | .sub a b | .mul a b => a.reads ++ b.reads

def Cond.reads : Cond M → List M
  | .defd m => [m]
  | .ge a b | .eq a b => a.reads ++ b.reads
  | .nonzero a => a.reads
  | .not c => c.reads
  | .and c d | .or c d => c.reads ++ d.reads

/-- The files a program may include. -/
def Prog.names : Prog M F D → List F
  | .seq p q | .cond _ p q => p.names ++ q.names
  | .file f p => f :: p.names
  | _ => []

/-- Who sets a macro (`none`: not this library), who makes a declaration, what a file offers beside its own macros, the files without
whose declarations a declaration makes no sense. -/
structure Owners (M F D : Type) where
  mac : M → Option F
  decl : D → F
  offers : F → List F
  needs : D → List F

variable (O : Owners M F D)

/-- The check: `g` is the file, `K` are the files known to be included at this point.  Result: the files known afterwards. -/
def Prog.scope : Prog M F D → F → List F → Option (List F)
  | .skip, _, K => some K
  | .define m _, g, K | .undef m, g, K => if O.mac m = some g then some K else none
  | .decl d, g, K => if O.decl d = g ∧ ∀ h ∈ O.needs d, h ∈ K then some K else none
  | .push, _, K | .pop, _, K => some K
  | .seq p q, g, K => (p.scope g K).bind (q.scope g)
  | .cond c p q, g, K =>
    if c.reads.all (fun m => match O.mac m with | none => true | some f => f == g || K.contains f) then
      match p.scope g K, q.scope g K with
      | some A, some B => some (A.filter B.contains)
      | _, _ => none
    else none
  | .file f p, _, K =>
    if p.names.contains f then none else
    match p.scope f [] with
    | some A => if (O.offers f).all A.contains then some (f :: (O.offers f ++ K)) else none
    | none => none

/-- Each file has one text. -/
def Prog.Closed (table : F → Prog M F D) : Prog M F D → Prop
  | .seq p q | .cond _ p q => p.Closed table ∧ q.Closed table
  | .file f p => table f = p ∧ p.Closed table
  | _ => True

/-- What a file contributes to two states is the same. -/
structure SameView (f : F) (s t : St M F D) : Prop where
  env : ∀ m, O.mac m = some f → s.env m = t.env m
  decls : s.decls.filter (fun d => O.decl d = f) = t.decls.filter (fun d => O.decl d = f)

theorem SameView.rfl' {f : F} {s : St M F D} : SameView O f s s := ⟨fun _ _ => rfl, rfl⟩
theorem SameView.symm' {f : F} {s t : St M F D} (h : SameView O f s t) : SameView O f t s :=
  ⟨fun m hm => (h.env m hm).symm, h.decls.symm⟩
theorem SameView.trans' {f : F} {s t u : St M F D} (h : SameView O f s t) (k : SameView O f t u) : SameView O f s u :=
  ⟨fun m hm => (h.env m hm).trans (k.env m hm), h.decls.trans k.decls⟩

theorem Num.eval_congr {E E' : Env M} {a : Num M} (h : ∀ m ∈ a.reads, E m = E' m) : a.eval E = a.eval E' := by
  induction a with
  | mac m => simp only [Num.eval, Env.val, h m (by simp [Num.reads])]
  | lit => rfl
  | add a b iha ihb | sub a b iha ihb | mul a b iha ihb =>
    simp only [Num.eval, iha (fun m hm => h m (by simp [Num.reads, hm])), ihb (fun m hm => h m (by simp [Num.reads, hm]))]

theorem Cond.eval_congr {E E' : Env M} {c : Cond M} (h : ∀ m ∈ c.reads, E m = E' m) : c.eval E = c.eval E' := by
  induction c with
  | defd m => simp only [Cond.eval, Env.has, h m (by simp [Cond.reads])]
  | ge a b | eq a b =>
    simp only [Cond.eval, Num.eval_congr (a := a) (fun m hm => h m (by simp [Cond.reads, hm])),
      Num.eval_congr (a := b) (fun m hm => h m (by simp [Cond.reads, hm]))]
  | nonzero a => simp only [Cond.eval, Num.eval_congr (a := a) (fun m hm => h m (by simp [Cond.reads, hm]))]
  | not c ih => simp only [Cond.eval, ih h]
  | and c d ihc ihd | or c d ihc ihd =>
    simp only [Cond.eval, ihc (fun m hm => h m (by simp [Cond.reads, hm])), ihd (fun m hm => h m (by simp [Cond.reads, hm]))]

/-- Files that a program does not name, and macros of the compiler, are left alone. -/
theorem Prog.run_frame {p : Prog M F D} {g : F} {K K' : List F} (hs : p.scope O g K = some K') (s : St M F D) :
    (∀ h, h ≠ g → h ∉ p.names → SameView O h (p.run s) s) ∧ (∀ m, O.mac m = none → (p.run s).env m = s.env m) ∧
    s.files ⊆ (p.run s).files ∧ (∀ h, h ∉ p.names → h ∉ s.files → h ∉ (p.run s).files) := by
  induction p generalizing g K K' s with
  | skip | push | pop => exact ⟨fun _ _ _ => ⟨fun _ _ => rfl, rfl⟩, fun _ _ => rfl, fun _ h => h, fun _ _ h => h⟩
  | define m v | undef m =>
    simp only [Prog.scope] at hs
    split at hs
    case isFalse => cases hs
    case isTrue hm =>
      refine ⟨fun h hg _ => ⟨fun x hx => ?_, rfl⟩, fun x hx => ?_, fun _ h => h, fun _ _ h => h⟩
      · have : x ≠ m := by rintro rfl; rw [hm] at hx; exact hg (Option.some.inj hx).symm
        simp only [Prog.run, Env.set, this, if_false]
      · have : x ≠ m := by rintro rfl; rw [hm] at hx; cases hx
        simp only [Prog.run, Env.set, this, if_false]
  | decl d =>
    simp only [Prog.scope] at hs
    split at hs
    case isFalse => cases hs
    case isTrue hd =>
      refine ⟨fun h hg _ => ⟨fun _ _ => rfl, ?_⟩, fun _ _ => rfl, fun _ h => h, fun _ _ h => h⟩
      have : O.decl d ≠ h := by rw [hd.1]; exact fun e => hg e.symm
      simp [Prog.run, this]
  | seq p q ihp ihq =>
    simp only [Prog.scope, Option.bind_eq_some_iff] at hs
    obtain ⟨K1, h1, h2⟩ := hs
    obtain ⟨a1, a2, a3, a4⟩ := ihp h1 s
    obtain ⟨b1, b2, b3, b4⟩ := ihq h2 (p.run s)
    refine ⟨fun h hg hn => ?_, fun m hm => ?_, fun x hx => b3 (a3 hx), fun h hn hf => ?_⟩
    · simp only [Prog.names, List.mem_append, not_or] at hn
      exact (b1 h hg hn.2).trans' O (a1 h hg hn.1)
    · exact (b2 m hm).trans (a2 m hm)
    · simp only [Prog.names, List.mem_append, not_or] at hn
      exact b4 h hn.2 (a4 h hn.1 hf)
  | cond c p q ihp ihq =>
    simp only [Prog.scope] at hs
    split at hs
    case isFalse => cases hs
    split at hs
    case h_2 => cases hs
    case h_1 A B hA hB =>
      simp only [Prog.run, Prog.names, List.mem_append, not_or]
      split
      · obtain ⟨a1, a2, a3, a4⟩ := ihp hA s
        exact ⟨fun h hg hn => a1 h hg hn.1, a2, a3, fun h hn hf => a4 h hn.1 hf⟩
      · obtain ⟨a1, a2, a3, a4⟩ := ihq hB s
        exact ⟨fun h hg hn => a1 h hg hn.2, a2, a3, fun h hn hf => a4 h hn.2 hf⟩
  | file f p ih =>
    simp only [Prog.scope] at hs
    split at hs
    case isTrue => cases hs
    split at hs
    case h_2 => cases hs
    case h_1 A hA =>
      simp only [Prog.run, Prog.names, List.mem_cons, not_or]
      split
      · exact ⟨fun _ _ _ => ⟨fun _ _ => rfl, rfl⟩, fun _ _ => rfl, fun _ h => h, fun _ _ h => h⟩
      · obtain ⟨a1, a2, a3, a4⟩ := ih hA { s with files := f :: s.files }
        refine ⟨fun h _ hn => ?_, a2, fun x hx => a3 (List.mem_cons_of_mem _ hx), fun h hn hf => a4 h hn.2 ?_⟩
        · exact (a1 h hn.1 hn.2).trans' O ⟨fun _ _ => rfl, rfl⟩
        · simp [hn.1, hf]

variable (table : F → Prog M F D) (E : Env M)

/-- What a file means: the state after it is included at the very beginning. -/
def alone (f : F) : St M F D := (Prog.file f (table f)).run (start E [])

/-- Files whose inclusion is complete mean what they mean alone, files that are not included have done nothing; `P` are the files that
are being included. -/
structure Inv (P : List F) (s : St M F D) : Prop where
  ext : ∀ m, O.mac m = none → s.env m = E m
  comp : ∀ f, f ∉ P → f ∈ s.files → SameView O f s (alone table E f) ∧ ∀ h ∈ O.offers f, h ∈ s.files ∧ h ∉ P
  blank : ∀ f, f ∉ s.files → SameView O f s (start E [])

/-- A file that is being included does its own things. -/
theorem Inv.own {P : List F} {s s' : St M F D} {g : F} (i : Inv O table E P s) (hg : g ∈ P) (hP : P ⊆ s.files)
    (h1 : ∀ h, h ≠ g → SameView O h s' s) (h2 : ∀ m, O.mac m = none → s'.env m = s.env m) (h3 : s'.files = s.files) :
    Inv O table E P s' := by
  refine ⟨fun m hm => (h2 m hm).trans (i.ext m hm), fun f hf hfs => ?_, fun f hf => ?_⟩
  · rw [h3] at hfs ⊢
    have : f ≠ g := by rintro rfl; exact hf hg
    exact ⟨(h1 f this).trans' O (i.comp f hf hfs).1, (i.comp f hf hfs).2⟩
  · rw [h3] at hf
    have : f ≠ g := by rintro rfl; exact hf (hP hg)
    exact (h1 f this).trans' O (i.blank f hf)

/-- The inclusion of a file begins. -/
theorem Inv.enter {P : List F} {s : St M F D} {f : F} (i : Inv O table E P s) (hf : f ∉ s.files) :
    Inv O table E (f :: P) { s with files := f :: s.files } := by
  refine ⟨i.ext, fun h hh hm => ?_, fun h hh => ?_⟩
  · simp only [List.mem_cons, not_or] at hh hm
    have hm : h ∈ s.files := hm.resolve_left hh.1
    obtain ⟨a, b⟩ := i.comp h hh.2 hm
    refine ⟨⟨a.env, a.decls⟩, fun k hk => ⟨List.mem_cons_of_mem _ (b k hk).1, ?_⟩⟩
    simp only [List.mem_cons, not_or]
    exact ⟨fun e => hf (e ▸ (b k hk).1), (b k hk).2⟩
  · simp only [List.mem_cons, not_or] at hh
    exact ⟨(i.blank h hh.2).env, (i.blank h hh.2).decls⟩

theorem Prog.run_sim {p : Prog M F D} {g : F} {K K' : List F} (hs : p.scope O g K = some K') (hc : p.Closed table)
    {P Q : List F} {s t : St M F D} (is : Inv O table E P s) (it : Inv O table E Q t) (hv : SameView O g s t)
    (gP : g ∈ P) (gQ : g ∈ Q) (PS : P ⊆ s.files) (QT : Q ⊆ t.files) (nP : ∀ f ∈ p.names, f ∉ P) (nQ : ∀ f ∈ p.names, f ∉ Q)
    (kP : ∀ f ∈ K, f ∈ s.files ∧ f ∉ P) (kQ : ∀ f ∈ K, f ∈ t.files ∧ f ∉ Q) :
    Inv O table E P (p.run s) ∧ Inv O table E Q (p.run t) ∧ SameView O g (p.run s) (p.run t) ∧
      (∀ f ∈ K', f ∈ (p.run s).files ∧ f ∉ P) ∧ (∀ f ∈ K', f ∈ (p.run t).files ∧ f ∉ Q) := by
  induction p generalizing g K K' P Q s t with
  | skip =>
    cases hs; exact ⟨is, it, hv, kP, kQ⟩
  | push | pop =>
    cases hs
    exact ⟨⟨is.ext, fun f a b => ⟨⟨(is.comp f a b).1.env, (is.comp f a b).1.decls⟩, (is.comp f a b).2⟩, fun f a => ⟨(is.blank f a).env, (is.blank f a).decls⟩⟩,
      ⟨it.ext, fun f a b => ⟨⟨(it.comp f a b).1.env, (it.comp f a b).1.decls⟩, (it.comp f a b).2⟩, fun f a => ⟨(it.blank f a).env, (it.blank f a).decls⟩⟩,
      ⟨hv.env, hv.decls⟩, kP, kQ⟩
  | define m v | undef m | decl d =>
    have fs := Prog.run_frame O hs s
    have ft := Prog.run_frame O hs t
    refine ⟨is.own O table E gP PS (fun h hh => fs.1 h hh (by simp [Prog.names])) fs.2.1 rfl,
      it.own O table E gQ QT (fun h hh => ft.1 h hh (by simp [Prog.names])) ft.2.1 rfl, ?_, ?_⟩
    · refine ⟨fun x hx => ?_, ?_⟩
      · first
          | exact hv.env x hx
          | (simp only [Prog.run, Env.set]; split; · rfl
             · exact hv.env x hx)
      · first
          | exact hv.decls
          | simp only [Prog.run, List.filter_cons, hv.decls]
    · simp only [Prog.scope] at hs
      split at hs
      case isFalse => cases hs
      case isTrue => cases hs; exact ⟨kP, kQ⟩
  | seq p q ihp ihq =>
    simp only [Prog.scope, Option.bind_eq_some_iff] at hs
    obtain ⟨K1, h1, h2⟩ := hs
    simp only [Prog.names, List.mem_append] at nP nQ
    obtain ⟨a1, a2, a3, a4, a5⟩ := ihp h1 hc.1 is it hv gP gQ PS QT (fun f hf => nP f (.inl hf)) (fun f hf => nQ f (.inl hf)) kP kQ
    exact ihq h2 hc.2 a1 a2 a3 gP gQ (fun x hx => (Prog.run_frame O h1 s).2.2.1 (PS hx)) (fun x hx => (Prog.run_frame O h1 t).2.2.1 (QT hx))
      (fun f hf => nP f (.inr hf)) (fun f hf => nQ f (.inr hf)) a4 a5
  | cond c p q ihp ihq =>
    simp only [Prog.scope] at hs
    split at hs
    case isFalse => cases hs
    rename_i hr
    split at hs
    case h_2 => cases hs
    case h_1 A B hA hB =>
      cases hs
      have hev : c.eval s.env = c.eval t.env := by
        refine Cond.eval_congr fun m hm => ?_
        have := List.all_eq_true.1 hr m hm
        split at this
        · rename_i hm; exact (is.ext m hm).trans (it.ext m hm).symm
        · rename_i f hm
          simp only [Bool.or_eq_true, beq_iff_eq, List.contains_iff_mem] at this
          rcases this with rfl | hK
          · exact hv.env m hm
          · exact ((is.comp f (kP f hK).2 (kP f hK).1).1.env m hm).trans ((it.comp f (kQ f hK).2 (kQ f hK).1).1.env m hm).symm
      simp only [Prog.names, List.mem_append] at nP nQ
      simp only [Prog.run, hev]
      split
      · obtain ⟨a1, a2, a3, a4, a5⟩ := ihp hA hc.1 is it hv gP gQ PS QT (fun f hf => nP f (.inl hf)) (fun f hf => nQ f (.inl hf)) kP kQ
        exact ⟨a1, a2, a3, fun f hf => a4 f (List.mem_filter.1 hf).1, fun f hf => a5 f (List.mem_filter.1 hf).1⟩
      · obtain ⟨a1, a2, a3, a4, a5⟩ := ihq hB hc.2 is it hv gP gQ PS QT (fun f hf => nP f (.inr hf)) (fun f hf => nQ f (.inr hf)) kP kQ
        exact ⟨a1, a2, a3, fun f hf => a4 f (by simpa using (List.mem_filter.1 hf).2), fun f hf => a5 f (by simpa using (List.mem_filter.1 hf).2)⟩
  | file f p ih =>
    have fs := Prog.run_frame O hs s
    have ft := Prog.run_frame O hs t
    simp only [Prog.scope] at hs
    split at hs
    case isTrue => cases hs
    rename_i hfp
    simp only [List.contains_iff_mem] at hfp
    split at hs
    case h_2 => cases hs
    case h_1 A hA =>
      split at hs
      case isFalse => cases hs
      rename_i hoff
      simp only [List.all_eq_true, List.contains_iff_mem] at hoff
      cases hs
      have fg : g ≠ f := by rintro rfl; exact nP g (by simp [Prog.names]) gP
      have gp : g ∉ p.names := fun h => nP g (by simp [Prog.names, h]) gP
      -- the inclusion of `f` in any state
      have key : ∀ {P : List F} {s : St M F D}, Inv O table E P s → P ⊆ s.files → (∀ h ∈ (Prog.file f p).names, h ∉ P) →
          Inv O table E P ((Prog.file f p).run s) ∧ f ∈ ((Prog.file f p).run s).files := by
        intro P s i hP hn
        simp only [Prog.run]
        split
        case isTrue h => exact ⟨i, h⟩
        case isFalse hf =>
          have fP : f ∉ P := hn f (by simp [Prog.names])
          have i1 := i.enter O table E hf
          have i2 : Inv O table E [f] { (start E [] : St M F D) with files := [f] } := by
            refine ⟨fun _ _ => rfl, fun h hh hm => absurd hm hh, fun h _ => ⟨fun _ _ => rfl, rfl⟩⟩
          have b := i.blank f hf
          obtain ⟨a1, a2, a3, a4, a5⟩ := ih hA hc.2 i1 i2 ⟨b.env, b.decls⟩ (by simp) (by simp)
            (by intro x hx; simp only [List.mem_cons] at hx ⊢; exact hx.imp id (fun h => hP h)) (by simp)
            (fun h hh => by simp only [List.mem_cons, not_or]; exact ⟨fun e => hfp (e ▸ hh), hn h (by simp [Prog.names, hh])⟩)
            (fun h hh => by simp only [List.mem_cons, List.not_mem_nil, or_false]; exact fun e => hfp (e ▸ hh))
            (by simp) (by simp)
          have hal : alone table E f = p.run { (start E [] : St M F D) with files := [f] } := by
            simp only [alone, Prog.run, hc.1, start, List.not_mem_nil, if_false]
          have hff := (Prog.run_frame O hA { s with files := f :: s.files }).2.2.1
          refine ⟨⟨a1.ext, fun h hh hm => ?_, a1.blank⟩, hff (by simp)⟩
          by_cases e : h = f
          · subst e
            rw [hal]
            exact ⟨a3, fun k hk => ⟨(a4 k (hoff k hk)).1, fun hkP => (a4 k (hoff k hk)).2 (List.mem_cons_of_mem _ hkP)⟩⟩
          · obtain ⟨x, y⟩ := a1.comp h (by simp [e, hh]) hm
            exact ⟨x, fun k hk => ⟨(y k hk).1, fun hkP => (y k hk).2 (List.mem_cons_of_mem _ hkP)⟩⟩
      obtain ⟨s1, s2⟩ := key is PS nP
      obtain ⟨t1, t2⟩ := key it QT nQ
      have fP : f ∉ P := nP f (by simp [Prog.names])
      have fQ : f ∉ Q := nQ f (by simp [Prog.names])
      refine ⟨s1, t1, ?_, ?_, ?_⟩
      · have gn : g ∉ (Prog.file f p).names := by simp [Prog.names, fg, gp]
        -- `g` is being included and is not touched
        have keep : ∀ s : St M F D, SameView O g ((Prog.file f p).run s) s := by
          intro s
          simp only [Prog.run]
          split
          · exact SameView.rfl' O
          · exact ((Prog.run_frame O hA _).1 g fg gp).trans' O ⟨fun _ _ => rfl, rfl⟩
        exact ((keep s).trans' O hv).trans' O ((keep t).symm' O)
      · intro h hh
        simp only [List.mem_cons, List.mem_append] at hh
        rcases hh with rfl | hh | hh
        · exact ⟨s2, fP⟩
        · exact (s1.comp f fP s2).2 h hh
        · exact ⟨fs.2.2.1 (kP h hh).1, (kP h hh).2⟩
      · intro h hh
        simp only [List.mem_cons, List.mem_append] at hh
        rcases hh with rfl | hh | hh
        · exact ⟨t2, fQ⟩
        · exact (t1.comp f fQ t2).2 h hh
        · exact ⟨ft.2.2.1 (kQ h hh).1, (kQ h hh).2⟩

/-- Headers that pass the check mean the same after whatever other headers of theirs. -/
theorem Inv.include {f : F} {K' : List F} (hs : (Prog.file f (table f)).scope O f [] = some K') (hc : (table f).Closed table)
    {s : St M F D} (i : Inv O table E [] s) : Inv O table E [] ((Prog.file f (table f)).run s) ∧ f ∈ ((Prog.file f (table f)).run s).files := by
  simp only [Prog.scope] at hs
  split at hs
  case isTrue => cases hs
  rename_i hfp
  simp only [List.contains_iff_mem] at hfp
  split at hs
  case h_2 => cases hs
  case h_1 A hA =>
    split at hs
    case isFalse => cases hs
    rename_i hoff
    simp only [List.all_eq_true, List.contains_iff_mem] at hoff
    simp only [Prog.run]
    split
    case isTrue h => exact ⟨i, h⟩
    case isFalse hf =>
      have i1 := i.enter O table E hf
      have i2 : Inv O table E [f] { (start E [] : St M F D) with files := [f] } :=
        ⟨fun _ _ => rfl, fun h hh hm => absurd hm hh, fun h _ => ⟨fun _ _ => rfl, rfl⟩⟩
      have b := i.blank f hf
      obtain ⟨a1, a2, a3, a4, a5⟩ := Prog.run_sim O table E hA hc i1 i2 ⟨b.env, b.decls⟩ (by simp) (by simp) (by simp) (by simp)
        (fun h hh => by simp only [List.mem_cons, List.not_mem_nil, or_false]; exact fun e => hfp (e ▸ hh))
        (fun h hh => by simp only [List.mem_cons, List.not_mem_nil, or_false]; exact fun e => hfp (e ▸ hh)) (by simp) (by simp)
      have hal : alone table E f = (table f).run { (start E [] : St M F D) with files := [f] } := by
        simp only [alone, Prog.run, start, List.not_mem_nil, if_false]
      have hff := (Prog.run_frame O hA { s with files := f :: s.files }).2.2.1
      refine ⟨⟨a1.ext, fun h _ hm => ?_, a1.blank⟩, hff (by simp)⟩
      by_cases e : h = f
      · subst e
        rw [hal]
        exact ⟨a3, fun k hk => ⟨(a4 k (hoff k hk)).1, by simp⟩⟩
      · obtain ⟨x, y⟩ := a1.comp h (by simp [e]) hm
        exact ⟨x, fun k hk => ⟨(y k hk).1, by simp⟩⟩

/-- A translation unit: whatever headers are included, in whatever order, each means what it means alone. -/
theorem includes_view (hs : ∀ f, ∃ K, (Prog.file f (table f)).scope O f [] = some K) (hc : ∀ f, (table f).Closed table)
    (fs : List F) {saved : List Bool} :
    let s := (includes table fs).run (start E saved)
    (∀ m, O.mac m = none → s.env m = E m) ∧ (∀ f ∈ s.files, SameView O f s (alone table E f)) ∧
      (∀ f, f ∉ s.files → SameView O f s (start E [])) ∧ fs ⊆ s.files := by
  have main : ∀ (fs : List F) (s : St M F D), Inv O table E [] s →
      Inv O table E [] ((includes table fs).run s) ∧ fs ⊆ ((includes table fs).run s).files ∧ s.files ⊆ ((includes table fs).run s).files := by
    intro fs
    induction fs with
    | nil => intro s i; exact ⟨i, by simp, fun _ h => h⟩
    | cons f fs ih =>
      intro s i
      obtain ⟨K, hK⟩ := hs f
      obtain ⟨i1, h1⟩ := i.include O table E hK (hc f)
      obtain ⟨a, b, c⟩ := ih _ i1
      refine ⟨a, ?_, fun x hx => c ((Prog.run_frame O hK s).2.2.1 hx)⟩
      intro x hx
      simp only [List.mem_cons] at hx
      rcases hx with rfl | hx
      · exact c h1
      · exact b hx
  have i0 : Inv O table E [] (start E saved : St M F D) :=
    ⟨fun _ _ => rfl, fun f _ hf => by simp [start] at hf, fun f _ => ⟨fun _ _ => rfl, rfl⟩⟩
  obtain ⟨i, h, _⟩ := main fs _ i0
  exact ⟨i.ext, fun f hf => (i.comp f (by simp) hf).1, i.blank, h⟩

/-- The text of a file without the files it includes, run where their macros are set already. -/
def Prog.own : Prog M F D → Env M × List D → Env M × List D
  | .define m v, s => (s.1.set m (some v), s.2)
  | .undef m, s => (s.1.set m none, s.2)
  | .decl d, s => (s.1, d :: s.2)
  | .seq p q, s => q.own (p.own s)
  | .cond c p q, s => match c.eval s.1 with
    | true => p.own s
    | false => q.own s
  | _, s => s

/-- `e` has the macros of `s` that belong to `g`, and those that other files set when they are included alone. -/
structure Fits (g : F) (s : St M F D) (r : Env M × List D) : Prop where
  ext : ∀ m, O.mac m = none → r.1 m = E m
  other : ∀ m h, h ≠ g → O.mac m = some h → r.1 m = (alone table E h).env m
  env : ∀ m, O.mac m = some g → s.env m = r.1 m
  decls : s.decls.filter (fun d => O.decl d = g) = r.2

theorem Prog.run_own {p : Prog M F D} {g : F} {K K' : List F} (hs : p.scope O g K = some K') (hc : p.Closed table)
    {P : List F} {s : St M F D} (is : Inv O table E P s) (gP : g ∈ P) (PS : P ⊆ s.files) (nP : ∀ f ∈ p.names, f ∉ P)
    (kP : ∀ f ∈ K, f ∈ s.files ∧ f ∉ P) {r : Env M × List D} (hr : Fits O table E g s r) : Fits O table E g (p.run s) (p.own r) := by
  induction p generalizing K K' s r with
  | skip => exact hr
  | push | pop => exact ⟨hr.ext, hr.other, hr.env, hr.decls⟩
  | define m v | undef m =>
    simp only [Prog.scope] at hs
    split at hs
    case isFalse => cases hs
    case isTrue hm =>
      refine ⟨fun x hx => ?_, fun x h hg hx => ?_, fun x hx => ?_, hr.decls⟩
      · have : x ≠ m := by rintro rfl; rw [hm] at hx; cases hx
        simp only [Prog.own, Env.set, this, if_false, hr.ext x hx]
      · have : x ≠ m := by rintro rfl; rw [hm] at hx; exact hg (Option.some.inj hx).symm
        simp only [Prog.own, Env.set, this, if_false, hr.other x h hg hx]
      · simp only [Prog.run, Prog.own, Env.set]; split
        · rfl
        · exact hr.env x hx
  | decl d =>
    simp only [Prog.scope] at hs
    split at hs
    case isFalse => cases hs
    case isTrue hd => exact ⟨hr.ext, hr.other, hr.env, by simp [Prog.run, Prog.own, hd.1, hr.decls]⟩
  | seq p q ihp ihq =>
    simp only [Prog.scope, Option.bind_eq_some_iff] at hs
    obtain ⟨K1, h1, h2⟩ := hs
    simp only [Prog.names, List.mem_append] at nP
    obtain ⟨a1, -, -, a4, -⟩ := Prog.run_sim O table E h1 hc.1 is is (SameView.rfl' O) gP gP PS PS (fun f hf => nP f (.inl hf)) (fun f hf => nP f (.inl hf)) kP kP
    exact ihq h2 hc.2 a1 (fun x hx => (Prog.run_frame O h1 s).2.2.1 (PS hx)) (fun f hf => nP f (.inr hf)) a4
      (ihp h1 hc.1 is PS (fun f hf => nP f (.inl hf)) kP hr)
  | cond c p q ihp ihq =>
    simp only [Prog.scope] at hs
    split at hs
    case isFalse => cases hs
    rename_i hreads
    split at hs
    case h_2 => cases hs
    case h_1 A B hA hB =>
      cases hs
      have hev : c.eval s.env = c.eval r.1 := by
        refine Cond.eval_congr fun m hm => ?_
        have := List.all_eq_true.1 hreads m hm
        split at this
        · rename_i hm; exact (is.ext m hm).trans (hr.ext m hm).symm
        · rename_i f hm
          simp only [Bool.or_eq_true, beq_iff_eq, List.contains_iff_mem] at this
          by_cases e : f = g
          · subst e; exact hr.env m hm
          · have hK := this.resolve_left e
            exact ((is.comp f (kP f hK).2 (kP f hK).1).1.env m hm).trans (hr.other m f e hm).symm
      simp only [Prog.names, List.mem_append] at nP
      simp only [Prog.run, Prog.own, hev]
      cases c.eval r.1
      · exact ihq hB hc.2 is PS (fun f hf => nP f (.inr hf)) kP hr
      · exact ihp hA hc.1 is PS (fun f hf => nP f (.inl hf)) kP hr
  | file f p ih =>
    have gn : g ∉ (Prog.file f p).names := fun h => nP g h gP
    have fg : g ≠ f := by rintro rfl; exact gn (by simp [Prog.names])
    have gp : g ∉ p.names := fun h => gn (by simp [Prog.names, h])
    have keep : SameView O g ((Prog.file f p).run s) s := by
      simp only [Prog.scope] at hs
      split at hs
      case isTrue => cases hs
      split at hs
      case h_2 => cases hs
      case h_1 A hA =>
        simp only [Prog.run]
        split
        · exact SameView.rfl' O
        · exact ((Prog.run_frame O hA _).1 g fg gp).trans' O ⟨fun _ _ => rfl, rfl⟩
    exact ⟨hr.ext, hr.other, fun m hm => (keep.env m hm).trans (hr.env m hm), keep.decls.trans hr.decls⟩

/-- The macros that the text of `f` finds: those of the other files are set already. -/
def found (f : F) : Env M := fun m => match O.mac m with
  | none => E m
  | some h => if h = f then E m else (alone table E h).env m

/-- What a file means at the beginning of a translation unit is a matter of its text without the files it includes. -/
theorem file_own {f : F} {p : Prog M F D} {K' : List F} (hs : (Prog.file f p).scope O f [] = some K') (hc : p.Closed table) :
    (∀ m, O.mac m = some f → ((Prog.file f p).run (start E [])).env m = (p.own (found O table E f, [])).1 m) ∧
    ((Prog.file f p).run (start E [])).decls.filter (fun d => O.decl d = f) = (p.own (found O table E f, [])).2 := by
  simp only [Prog.scope] at hs
  split at hs
  case isTrue => cases hs
  rename_i hfp
  simp only [List.contains_iff_mem] at hfp
  split at hs
  case h_2 => cases hs
  case h_1 A hA =>
    have i2 : Inv O table E [f] { (start E [] : St M F D) with files := [f] } :=
      ⟨fun _ _ => rfl, fun h hh hm => absurd hm hh, fun h _ => ⟨fun _ _ => rfl, rfl⟩⟩
    have hal : (Prog.file f p).run (start E []) = p.run { (start E [] : St M F D) with files := [f] } := by
      simp only [Prog.run, start, List.not_mem_nil, if_false]
    have := Prog.run_own O table E hA hc i2 (by simp) (by simp)
      (fun h hh => by simp only [List.mem_cons, List.not_mem_nil, or_false]; exact fun e => hfp (e ▸ hh)) (by simp)
      (r := (found O table E f, []))
      ⟨fun m hm => by simp only [found, hm], fun m h hg hm => by simp only [found, hm, hg, if_false],
        fun m hm => by simp only [found, hm, if_true]; rfl, rfl⟩
    rw [hal]
    exact ⟨this.env, this.decls⟩

theorem alone_own {f : F} {K' : List F} (hs : (Prog.file f (table f)).scope O f [] = some K') (hc : (table f).Closed table) :
    (∀ m, O.mac m = some f → (alone table E f).env m = ((table f).own (found O table E f, [])).1 m) ∧
    (alone table E f).decls.filter (fun d => O.decl d = f) = ((table f).own (found O table E f, [])).2 :=
  file_own O table E hs hc

/-- Where a declaration is made, everything that it needs has been declared. -/
def Ready (ds : List D) : Prop :=
  ∀ d l, d :: l <:+ ds → ∀ g ∈ O.needs d, ((alone table E g).decls.filter (fun x => O.decl x = g)).Sublist l

theorem Prog.run_ready {p : Prog M F D} {g : F} {K K' : List F} (hs : p.scope O g K = some K') (hc : p.Closed table)
    {P : List F} {s : St M F D} (is : Inv O table E P s) (gP : g ∈ P) (PS : P ⊆ s.files) (nP : ∀ f ∈ p.names, f ∉ P)
    (kP : ∀ f ∈ K, f ∈ s.files ∧ f ∉ P) (hr : Ready O table E s.decls) : Ready O table E (p.run s).decls := by
  induction p generalizing g K K' P s with
  | skip | push | pop | define | undef => exact hr
  | decl d =>
    simp only [Prog.scope] at hs
    split at hs
    case isFalse => cases hs
    case isTrue hd =>
      intro x l hl h hh
      simp only [Prog.run] at hl
      rcases List.suffix_cons_iff.1 hl with e | e
      · cases e
        have := (is.comp h (kP h (hd.2 h hh)).2 (kP h (hd.2 h hh)).1).1.decls
        rw [← this]
        exact List.filter_sublist
      · exact hr x l e h hh
  | seq p q ihp ihq =>
    simp only [Prog.scope, Option.bind_eq_some_iff] at hs
    obtain ⟨K1, h1, h2⟩ := hs
    simp only [Prog.names, List.mem_append] at nP
    obtain ⟨a1, -, -, a4, -⟩ := Prog.run_sim O table E h1 hc.1 is is (SameView.rfl' O) gP gP PS PS (fun f hf => nP f (.inl hf)) (fun f hf => nP f (.inl hf)) kP kP
    exact ihq h2 hc.2 a1 gP (fun x hx => (Prog.run_frame O h1 s).2.2.1 (PS hx)) (fun f hf => nP f (.inr hf)) a4
      (ihp h1 hc.1 is gP PS (fun f hf => nP f (.inl hf)) kP hr)
  | cond c p q ihp ihq =>
    simp only [Prog.scope] at hs
    split at hs
    case isFalse => cases hs
    split at hs
    case h_2 => cases hs
    case h_1 A B hA hB =>
      simp only [Prog.names, List.mem_append] at nP
      simp only [Prog.run]
      cases c.eval s.env
      · exact ihq hB hc.2 is gP PS (fun f hf => nP f (.inr hf)) kP hr
      · exact ihp hA hc.1 is gP PS (fun f hf => nP f (.inl hf)) kP hr
  | file f p ih =>
    simp only [Prog.scope] at hs
    split at hs
    case isTrue => cases hs
    rename_i hfp
    simp only [List.contains_iff_mem] at hfp
    split at hs
    case h_2 => cases hs
    case h_1 A hA =>
      simp only [Prog.run]
      split
      case isTrue => exact hr
      case isFalse hf =>
        have i1 : Inv O table E (f :: P) { s with files := f :: s.files } := is.enter O table E hf
        exact ih hA hc.2 i1 (by simp) (by intro x hx; simp only [List.mem_cons] at hx ⊢; exact hx.imp id (fun h => PS h))
          (fun h hh => by simp only [List.mem_cons, not_or]; exact ⟨fun e => hfp (e ▸ hh), nP h (by simp [Prog.names, hh])⟩) (by simp) hr

/-- In a translation unit everything is declared before it is needed. -/
theorem includes_ready (hs : ∀ f, ∃ K, (Prog.file f (table f)).scope O f [] = some K) (hc : ∀ f, (table f).Closed table)
    (fs : List F) {saved : List Bool} : Ready O table E ((includes table fs).run (start E saved)).decls := by
  have main : ∀ (fs : List F) (s : St M F D), Inv O table E [] s → Ready O table E s.decls →
      Ready O table E ((includes table fs).run s).decls := by
    intro fs
    induction fs with
    | nil => intro s _ h; exact h
    | cons f fs ih =>
      intro s i h
      obtain ⟨K, hK⟩ := hs f
      refine ih _ (i.include O table E hK (hc f)).1 ?_
      simp only [Prog.scope] at hK
      split at hK
      case isTrue => cases hK
      rename_i hfp
      simp only [List.contains_iff_mem] at hfp
      split at hK
      case h_2 => cases hK
      case h_1 A hA =>
        simp only [Prog.run]
        split
        case isTrue => exact h
        case isFalse hf =>
          exact Prog.run_ready O table E hA (hc f) (i.enter O table E hf) (by simp) (by simp)
            (fun h hh => by simp only [List.mem_cons, List.not_mem_nil, or_false]; exact fun e => hfp (e ▸ hh)) (by simp) h
  have i0 : Inv O table E [] (start E saved : St M F D) :=
    ⟨fun _ _ => rfl, fun f _ hf => by simp [start] at hf, fun f _ => ⟨fun _ _ => rfl, rfl⟩⟩
  exact main fs _ i0 (fun d l hl => by simp [start] at hl)

end Verif.Preproc
